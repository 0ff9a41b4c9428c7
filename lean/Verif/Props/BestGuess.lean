import Verif.Model.BestGuess
import Verif.Props.Temporaries
import Verif.Props.Xumpy
/-
C132: comparing two files.
-/
namespace NDSL.BestGuess
open NDSL.Storage (isIndex)

variable {V W U : Type}

/-! ### Specification -/

/-- The data without numbers of savepoint and rank: of data with five dimensions or more, the first of each. -/
def Body (a a' : Arr V) : Prop :=
  (a.shape.length < 5 ∧ a' = a) ∨
  (∃ m n s, a.shape = (m + 1) :: (n + 1) :: s ∧ 3 ≤ s.length ∧ a' = ⟨s, fun p => a.get (0 :: 0 :: p)⟩)

/-- Shapes that go together: `s` is the common part, which starts at `oA` in A and at `oB` in B along the first two
dimensions: either there is no halo, or one of them has a halo of `h` points on each of the four sides. -/
def Matches (h : Int) (sA sB s : List Nat) (oA oB : Nat) : Prop :=
  ∃ i j k r, s = i :: j :: k :: r ∧
    ((sA = s ∧ sB = s ∧ oA = 0 ∧ oB = 0) ∨
     (0 < h ∧ (oA : Int) = h ∧ oB = 0 ∧ sA = (i + 2 * oA) :: (j + 2 * oA) :: k :: r ∧ sB = s) ∨
     (0 < h ∧ (oB : Int) = h ∧ oA = 0 ∧ sB = (i + 2 * oB) :: (j + 2 * oB) :: k :: r ∧ sA = s))

/-- The place in an array of a point of the common part. -/
def shift (o : Nat) : List Nat → List Nat
  | i :: j :: p => (i + o) :: (j + o) :: p
  | p => p

/-! ### One variable -/

theorem lead_body {a a' : Arr V} (h : Body a a') : lead a = .ok a' := by
  unfold lead
  rcases h with ⟨h1, h2⟩ | ⟨m, n, s, h1, h2, h3⟩
  · rw [if_neg (by omega), h2]
  · rw [h1]
    simp only [List.length_cons]
    rw [if_pos (by omega), if_neg (by omega), h3]

theorem body_of_lead {a a' : Arr V} (h : lead a = .ok a') : Body a a' := by
  unfold lead at h
  split at h
  · rename_i h5
    split at h
    · rename_i m n s hs
      split at h
      · cases h
      · rename_i hz
        injection h with h
        refine .inr ⟨m - 1, n - 1, s, ?_, ?_, h.symm⟩
        · rw [hs]
          congr 1
          · omega
          · congr 1
            omega
        · rw [hs] at h5
          simpa using h5
    · cases h
  · rename_i h5
    injection h with h
    exact .inl ⟨by omega, h.symm⟩

theorem resolve_spec (h : Int) (a b : Nat) (f : Bool × Bool) : resolve h a b = some f ↔
    (a = b ∧ f = (false, false)) ∨ (a < b ∧ (b : Int) = a + 2 * h ∧ f = (false, true)) ∨
    (b < a ∧ (a : Int) = b + 2 * h ∧ f = (true, false)) := by
  unfold resolve
  split
  · split
    · split
      · constructor
        · intro h; cases h
        · omega
      · simp only [Option.some.injEq]
        constructor
        · rintro rfl; right; left; exact ⟨by omega, by omega, rfl⟩
        · rintro (h | h | h)
          · omega
          · exact h.2.2.symm
          · omega
    · split
      · constructor
        · intro h; cases h
        · omega
      · simp only [Option.some.injEq]
        constructor
        · rintro rfl; right; right; exact ⟨by omega, by omega, rfl⟩
        · rintro (h | h | h)
          · omega
          · omega
          · exact h.2.2.symm
  · simp only [Option.some.injEq]
    constructor
    · rintro rfl; left; exact ⟨by omega, rfl⟩
    · rintro (h | h | h)
      · exact h.2.symm
      · omega
      · omega

/-- The common part as it lies in an array. -/
def part (a : Arr V) (s : List Nat) (o : Nat) : Arr V := ⟨s, fun p => a.get (shift o p)⟩

theorem shift_zero (p : List Nat) : shift 0 p = p := by
  unfold shift
  split <;> rfl

theorem part_zero (a : Arr V) : part a a.shape 0 = a := by
  unfold part
  cases a
  simp only [Arr.mk.injEq, true_and]
  funext p
  rw [shift_zero]

theorem clip_part (h : Int) (a : Arr V) {i j : Nat} {s : List Nat} (hs : a.shape = (i + 2 * h.toNat) :: (j + 2 * h.toNat) :: s) :
    clip h a = part a (i :: j :: s) h.toNat := by
  unfold clip part
  rw [hs]
  simp only [Arr.mk.injEq]
  refine ⟨?_, ?_⟩
  · simp only [inner]
    congr 1
    · omega
    · congr 1
      omega
  · funext p
    match p with
    | [] => rfl
    | [_] => rfl
    | _ :: _ :: _ => rfl

/-- **C132.** Of arrays that are not empty, exactly those are compared whose shapes are equal or differ by a halo around one of
them, and compared are the values at corresponding points. -/
theorem C132_compared (h : Int) (dataA dataB a b x y : Arr V) (ha : Body dataA a) (hb : Body dataB b)
    (pa : 0 ∉ a.shape) (pb : 0 ∉ b.shape) :
    reconcile h dataA dataB = .ok (some (x, y)) ↔
      ∃ s oA oB, Matches h a.shape b.shape s oA oB ∧ x = part a s oA ∧ y = part b s oB := by
  unfold reconcile
  rw [lead_body ha, lead_body hb]
  simp only [Except.bind, bind, pure, Except.pure]
  split
  · rename_i hl
    constructor
    · intro h; simp at h
    · rintro ⟨s, oA, oB, ⟨i, j, k, r, hs, hm⟩, -⟩
      exfalso
      apply hl
      rcases hm with ⟨h1, h2, -⟩ | ⟨-, -, -, h1, h2⟩ | ⟨-, -, -, h1, h2⟩ <;> rw [h1, h2] <;> simp [hs]
  · rename_i hl
    simp only [ne_eq, Decidable.not_not] at hl
    obtain ⟨sa, ga⟩ := a
    obtain ⟨sb, gb⟩ := b
    have short : ∀ P : Prop, (sa.length < 3) → (¬ P) → (P ↔ ∃ s oA oB, Matches h sa sb s oA oB ∧
        x = part ⟨sa, ga⟩ s oA ∧ y = part ⟨sb, gb⟩ s oB) := by
      intro P hlt hP
      refine ⟨fun h => absurd h hP, ?_⟩
      rintro ⟨s, oA, oB, ⟨i, j, k, r, hs, hm⟩, -⟩
      exfalso
      rcases hm with ⟨h1, h2, -⟩ | ⟨-, -, -, h1, h2⟩ | ⟨-, -, -, h2, h1⟩ <;> rw [h1] at hlt <;> simp [hs] at hlt <;> omega
    dsimp only at hl pa pb ⊢
    match sa, sb, hl, pa, pb, short with
    | [], _, _, _, _, short => exact short _ (by simp) (by simp)
    | [i], [j], _, _, _, short =>
      refine short _ (by simp) ?_
      dsimp only
      split <;> simp
    | [i, i'], [j, j'], _, _, _, short =>
      refine short _ (by simp) ?_
      dsimp only
      split
      · simp
      · split <;> simp
    | ai :: aj :: ak :: ar, bi :: bj :: bk :: br, hl, pa, pb, _ =>
      dsimp only
      simp only [List.mem_cons, not_or] at pa pb
      have hsplit := resolve_spec h ai bi
      have hsplitJ := resolve_spec h aj bj
      constructor
      · intro hx
        split at hx
        · simp at hx
        · rename_i haloA haloB hI
          split at hx
          · simp at hx
          · rename_i fJ hJ
            split at hx
            · simp at hx
            · rename_i hk
              simp only [ne_eq, Decidable.not_not] at hk
              rcases (hsplit _).1 hI with ⟨h1, h2⟩ | ⟨h1, h2, h3⟩ | ⟨h1, h2, h3⟩
              · simp only [Prod.mk.injEq] at h2
                rw [h2.1, h2.2] at hx
                simp only [Bool.false_eq_true, if_false] at hx
                split at hx
                · rename_i hs
                  simp only [Except.ok.injEq, Option.some.injEq, Prod.mk.injEq] at hx
                  refine ⟨ai :: aj :: ak :: ar, 0, 0, ⟨ai, aj, ak, ar, rfl, .inl ⟨rfl, hs.symm, rfl, rfl⟩⟩, ?_, ?_⟩
                  · rw [← hx.1]; exact (part_zero _).symm
                  · rw [← hx.2, hs]; exact (part_zero _).symm
                · simp at hx
              · simp only [Prod.mk.injEq] at h3
                rw [h3.1, h3.2] at hx
                simp only [Bool.false_eq_true, if_false, if_true] at hx
                split at hx
                · rename_i hs
                  simp only [Except.ok.injEq, Option.some.injEq, Prod.mk.injEq] at hx
                  simp only [clip, inner, List.cons.injEq] at hs
                  have e1 : bi = ai + 2 * h.toNat := by omega
                  have e2 : bj = aj + 2 * h.toNat := by omega
                  have e3 : bk = ak ∧ br = ar := ⟨hs.2.2.1.symm, hs.2.2.2.symm⟩
                  have hsb : (⟨bi :: bj :: bk :: br, gb⟩ : Arr V).shape =
                      (ai + 2 * h.toNat) :: (aj + 2 * h.toNat) :: ak :: ar := by rw [← e1, ← e2, ← e3.1, ← e3.2]
                  refine ⟨ai :: aj :: ak :: ar, 0, h.toNat, ⟨ai, aj, ak, ar, rfl,
                    .inr (.inr ⟨by omega, by omega, rfl, hsb, rfl⟩)⟩, ?_, ?_⟩
                  · rw [← hx.1]; exact (part_zero _).symm
                  · rw [← hx.2]; exact clip_part h _ hsb
                · simp at hx
              · simp only [Prod.mk.injEq] at h3
                rw [h3.1, h3.2] at hx
                simp only [Bool.false_eq_true, if_false, if_true] at hx
                split at hx
                · rename_i hs
                  simp only [Except.ok.injEq, Option.some.injEq, Prod.mk.injEq] at hx
                  simp only [clip, inner, List.cons.injEq] at hs
                  have e1 : ai = bi + 2 * h.toNat := by omega
                  have e2 : aj = bj + 2 * h.toNat := by omega
                  have e3 : ak = bk ∧ ar = br := ⟨hs.2.2.1, hs.2.2.2⟩
                  have hsa : (⟨ai :: aj :: ak :: ar, ga⟩ : Arr V).shape =
                      (bi + 2 * h.toNat) :: (bj + 2 * h.toNat) :: bk :: br := by rw [← e1, ← e2, ← e3.1, ← e3.2]
                  refine ⟨bi :: bj :: bk :: br, h.toNat, 0, ⟨bi, bj, bk, br, rfl,
                    .inr (.inl ⟨by omega, by omega, rfl, hsa, rfl⟩)⟩, ?_, ?_⟩
                  · rw [← hx.1]; exact clip_part h _ hsa
                  · rw [← hx.2]; exact (part_zero _).symm
                · simp at hx
      · rintro ⟨s, oA, oB, ⟨i, j, k, r, hs, hm⟩, hx, hy⟩
        rcases hm with ⟨h1, h2, h3, h4⟩ | ⟨h0, h1, h2, h3, h4⟩ | ⟨h0, h1, h2, h3, h4⟩
        · rw [hs] at h1 h2
          simp only [List.cons.injEq] at h1 h2
          obtain ⟨rfl, rfl, rfl, rfl⟩ := h1
          obtain ⟨rfl, rfl, rfl, rfl⟩ := h2
          rw [(hsplit _).2 (.inl ⟨rfl, rfl⟩), (hsplitJ _).2 (.inl ⟨rfl, rfl⟩)]
          simp only [not_true, if_false, Bool.false_eq_true, if_true, ne_eq]
          rw [hx, hy, h3, h4, hs]
          rw [show part (⟨bi :: bj :: bk :: br, ga⟩ : Arr V) (bi :: bj :: bk :: br) 0 = _ from part_zero _,
            show part (⟨bi :: bj :: bk :: br, gb⟩ : Arr V) (bi :: bj :: bk :: br) 0 = _ from part_zero _]
        · have ho : oA = h.toNat := by omega
          rw [hs] at h4
          simp only [List.cons.injEq] at h3 h4
          obtain ⟨rfl, rfl, rfl, rfl⟩ := h4
          obtain ⟨e1, e2, rfl, rfl⟩ := h3
          have hsa : (⟨ai :: aj :: ak :: ar, ga⟩ : Arr V).shape =
              (bi + 2 * h.toNat) :: (bj + 2 * h.toNat) :: ak :: ar := by rw [e1, e2, ho]
          rw [(hsplit (true, false)).2 (.inr (.inr ⟨by omega, by omega, rfl⟩)),
            (hsplitJ (true, false)).2 (.inr (.inr ⟨by omega, by omega, rfl⟩))]
          simp only [not_true, if_false, Bool.false_eq_true, if_true, ne_eq]
          rw [clip_part h _ hsa]
          simp only [part, if_true]
          rw [hx, hy, h2, ho, hs]
          have := part_zero (⟨bi :: bj :: ak :: ar, gb⟩ : Arr V)
          simp only [part] at this
          simp only [part, this]
        · have ho : oB = h.toNat := by omega
          rw [hs] at h4
          simp only [List.cons.injEq] at h3 h4
          obtain ⟨rfl, rfl, rfl, rfl⟩ := h4
          obtain ⟨e1, e2, rfl, rfl⟩ := h3
          have hsb : (⟨bi :: bj :: bk :: br, gb⟩ : Arr V).shape =
              (ai + 2 * h.toNat) :: (aj + 2 * h.toNat) :: bk :: br := by rw [e1, e2, ho]
          rw [(hsplit (false, true)).2 (.inr (.inl ⟨by omega, by omega, rfl⟩)),
            (hsplitJ (false, true)).2 (.inr (.inl ⟨by omega, by omega, rfl⟩))]
          simp only [not_true, if_false, Bool.false_eq_true, if_true, ne_eq]
          rw [clip_part h _ hsb]
          simp only [part, if_true]
          rw [hx, hy, h2, ho, hs]
          have := part_zero (⟨ai :: aj :: bk :: br, ga⟩ : Arr V)
          simp only [part] at this
          simp only [part, this]

/-! ### The program -/

/-- The name under which a variable of A is found in B: its own if B has it, else the one it is mapped to. -/
def FoundAs (B : List (String × Arr V)) (names : List (String × String)) (n m : String) : Prop :=
  (n ∈ B.map (fun e => e.1) ∧ m = n) ∨ (n ∉ B.map (fun e => e.1) ∧ dictGet names n = some m)

theorem nameInB_iff (B : List (String × Arr V)) (names : List (String × String)) (n m : String) :
    nameInB B names n = some m ↔ FoundAs B names n m := by
  unfold nameInB FoundAs
  have : (B.any fun e => e.1 == n) = true ↔ n ∈ B.map fun e => e.1 := by
    simp only [List.any_eq_true, beq_iff_eq, List.mem_map]
  split
  · rename_i h
    rw [this] at h
    simp only [Option.some.injEq, h, true_and, not_true, false_and, or_false]
    exact eq_comm
  · rename_i h
    rw [this] at h
    simp only [h, false_and, not_false_eq_true, true_and, false_or]

/-- The variable `n` of A is compared: `x` with `y`. -/
def Compared (B : List (String × Arr V)) (names : List (String × String)) (h : Int) (n : String) (dataA x y : Arr V) : Prop :=
  ∃ m dataB, nameInB B names n = some m ∧ dictGet B m = some dataB ∧ reconcile h dataA dataB = .ok (some (x, y))

theorem ulp_inj {n n' : String} (h : "ulp_" ++ n = "ulp_" ++ n') : n = n' := by simpa using h

section
variable (sub : V → V → W) (ulp : V → V → U) (le : U → U → Bool) (B : List (String × Arr V))
  (names : List (String × String)) (h : Int)

/-- The two entries of a variable. -/
def entries (x y : Arr V) : Saved W U × Saved W U :=
  (.diff ⟨x.shape, fun p => sub (x.get p) (y.get p)⟩,
   .ulps (((Temporaries.indices x.shape).map fun p => ulp (x.get p) (y.get p)).mergeSort le))

theorem main_cons (n : String) (dataA : Arr V) (A : List (String × Arr V)) (d d' : String → Option (Saved W U))
    (hm : main true sub ulp le B names h ((n, dataA) :: A) d = .ok d') :
    (∃ x y, Compared B names h n dataA x y ∧
      main true sub ulp le B names h A (set (set d n (entries sub ulp le x y).1) ("ulp_" ++ n) (entries sub ulp le x y).2)
        = .ok d') ∨
    ((¬ ∃ x y, Compared B names h n dataA x y) ∧ main true sub ulp le B names h A d = .ok d') := by
  unfold main at hm
  split at hm
  · rename_i h1
    refine .inr ⟨?_, hm⟩
    rintro ⟨x, y, m, dataB, h2, -⟩
    rw [h1] at h2; cases h2
  · rename_i m h1
    split at hm
    · cases hm
    · rename_i dataB h2
      split at hm
      · cases hm
      · rename_i h3
        refine .inr ⟨?_, hm⟩
        rintro ⟨x, y, m', dataB', h4, h5, h6⟩
        rw [h1] at h4; injection h4 with h4
        rw [← h4, h2] at h5; injection h5 with h5
        rw [← h5, h3] at h6
        injection h6 with h6
        cases h6
      · rename_i x y h3
        exact .inl ⟨x, y, ⟨m, dataB, h1, h2, h3⟩, hm⟩

theorem main_other (A : List (String × Arr V)) (d d' : String → Option (Saved W U)) (k : String)
    (hm : main true sub ulp le B names h A d = .ok d') (hk : ∀ e ∈ A, k ≠ e.1 ∧ k ≠ "ulp_" ++ e.1) : d' k = d k := by
  induction A generalizing d with
  | nil =>
    unfold main at hm
    injection hm with hm
    rw [hm]
  | cons e A ih =>
    obtain ⟨n, dataA⟩ := e
    have hn := hk _ List.mem_cons_self
    rcases main_cons sub ulp le B names h n dataA A d d' hm with ⟨x, y, -, h2⟩ | ⟨-, h2⟩
    · rw [ih _ h2 fun e he => hk e (List.mem_cons_of_mem _ he)]
      simp only [set]
      rw [if_neg hn.2, if_neg hn.1]
    · exact ih _ h2 fun e he => hk e (List.mem_cons_of_mem _ he)

/-- No variable is called as the distances of another are. -/
def NoClash (A : List (String × Arr V)) : Prop := ∀ e ∈ A, ∀ f ∈ A, f.1 ≠ "ulp_" ++ e.1

theorem compared_unique {n : String} {dataA x y x' y' : Arr V} (h1 : Compared B names h n dataA x y)
    (h2 : Compared B names h n dataA x' y') : x = x' ∧ y = y' := by
  obtain ⟨m, b, a1, a2, a3⟩ := h1
  obtain ⟨m', b', b1, b2, b3⟩ := h2
  rw [a1] at b1; injection b1 with b1
  rw [← b1, a2] at b2; injection b2 with b2
  rw [← b2, a3] at b3
  simpa using b3

theorem main_spec (A : List (String × Arr V)) (hA : (A.map fun e => e.1).Nodup) (hc : NoClash A)
    (d d' : String → Option (Saved W U)) (hm : main true sub ulp le B names h A d = .ok d')
    (n : String) (dataA : Arr V) (hn : (n, dataA) ∈ A) :
    (∀ x y, Compared B names h n dataA x y →
      d' n = some (entries sub ulp le x y).1 ∧ d' ("ulp_" ++ n) = some (entries sub ulp le x y).2) ∧
    ((¬ ∃ x y, Compared B names h n dataA x y) → d' n = d n ∧ d' ("ulp_" ++ n) = d ("ulp_" ++ n)) := by
  induction A generalizing d with
  | nil => cases hn
  | cons e A ih =>
    obtain ⟨n0, data0⟩ := e
    simp only [List.map_cons, List.nodup_cons, List.mem_map, not_exists, not_and] at hA
    have hc' : NoClash A := fun e he f hf => hc e (List.mem_cons_of_mem _ he) f (List.mem_cons_of_mem _ hf)
    have hcons := main_cons sub ulp le B names h n0 data0 A d d' hm
    rcases List.mem_cons.1 hn with heq | hin
    · simp only [Prod.mk.injEq] at heq
      obtain ⟨rfl, rfl⟩ := heq
      have k1 : ∀ e ∈ A, n ≠ e.1 ∧ n ≠ "ulp_" ++ e.1 := fun e he =>
        ⟨fun h => hA.1 e he h.symm, hc e (List.mem_cons_of_mem _ he) (n, dataA) List.mem_cons_self⟩
      have k2 : ∀ e ∈ A, "ulp_" ++ n ≠ e.1 ∧ "ulp_" ++ n ≠ "ulp_" ++ e.1 := fun e he =>
        ⟨fun h => hc (n, dataA) List.mem_cons_self e (List.mem_cons_of_mem _ he) h.symm,
          fun h => hA.1 e he (ulp_inj h).symm⟩
      have hne : n ≠ "ulp_" ++ n := hc (n, dataA) List.mem_cons_self (n, dataA) List.mem_cons_self
      rcases hcons with ⟨x, y, h1, h2⟩ | ⟨h1, h2⟩
      · have o1 := main_other sub ulp le B names h A _ d' n h2 k1
        have o2 := main_other sub ulp le B names h A _ d' ("ulp_" ++ n) h2 k2
        refine ⟨fun x' y' hxy => ?_, fun hno => absurd ⟨x, y, h1⟩ hno⟩
        obtain ⟨rfl, rfl⟩ := compared_unique B names h h1 hxy
        rw [o1, o2]
        simp only [set, if_true]
        rw [if_neg hne]
        exact ⟨rfl, trivial⟩
      · refine ⟨fun x y hxy => absurd ⟨x, y, hxy⟩ h1, fun _ => ?_⟩
        exact ⟨main_other sub ulp le B names h A _ d' n h2 k1, main_other sub ulp le B names h A _ d' _ h2 k2⟩
    · rcases hcons with ⟨x, y, h1, h2⟩ | ⟨h1, h2⟩
      · have := ih hA.2 hc' _ h2 hin
        refine ⟨this.1, fun hno => ?_⟩
        obtain ⟨t1, t2⟩ := this.2 hno
        have hne : n ≠ n0 := fun h => hA.1 _ hin h
        rw [t1, t2]
        simp only [set]
        rw [if_neg (hc (n0, data0) List.mem_cons_self (n, dataA) (List.mem_cons_of_mem _ hin)), if_neg hne,
          if_neg (fun h => hne (ulp_inj h)),
          if_neg (fun h => hc (n, dataA) (List.mem_cons_of_mem _ hin) (n0, data0) List.mem_cons_self h.symm)]
        exact ⟨rfl, rfl⟩
      · exact ih hA.2 hc' _ h2 hin

/-- **C132.** Had the arrays a method `flatten`: when the program ends, then of every variable of A found in B (under its name, else
under the one it is mapped to) the file has the difference at every point of the common part and, sorted, the distance in units
of rounding of every such point, if the shapes go together, and nothing if they do not. -/
theorem C132_saved_partial (A : List (String × Arr V)) (hA : (A.map fun e => e.1).Nodup) (hc : NoClash A)
    (d' : String → Option (Saved W U)) (hm : main true sub ulp le B names h A (fun _ => none) = .ok d')
    (n m : String) (dataA dataB a b : Arr V) (hn : (n, dataA) ∈ A) (hf : FoundAs B names n m) (hB : dictGet B m = some dataB)
    (ha : Body dataA a) (hb : Body dataB b) (pa : 0 ∉ a.shape) (pb : 0 ∉ b.shape) :
    (∀ s oA oB, Matches h a.shape b.shape s oA oB →
      ∃ D l, d' n = some (.diff D) ∧ d' ("ulp_" ++ n) = some (.ulps l) ∧ D.shape = s ∧
        (∀ p, D.get p = sub (a.get (shift oA p)) (b.get (shift oB p))) ∧
        (∃ points : List (List Nat), points.Nodup ∧ (∀ p, p ∈ points ↔ isIndex s p) ∧
          l.Perm (points.map fun p => ulp (a.get (shift oA p)) (b.get (shift oB p)))) ∧
        ((∀ u v w, le u v = true → le v w = true → le u w = true) → (∀ u v, le u v = true ∨ le v u = true) →
          l.Pairwise fun u v => le u v = true)) ∧
    ((¬ ∃ s oA oB, Matches h a.shape b.shape s oA oB) → d' n = none ∧ d' ("ulp_" ++ n) = none) := by
  obtain ⟨h1, h2⟩ := main_spec sub ulp le B names h A hA hc _ d' hm n dataA hn
  have hcmp := fun x y => C132_compared h dataA dataB a b x y ha hb pa pb
  refine ⟨fun s oA oB hs => ?_, fun hno => h2 ?_⟩
  · obtain ⟨e1, e2⟩ := h1 (part a s oA) (part b s oB)
      ⟨m, dataB, (nameInB_iff B names n m).2 hf, hB, (hcmp _ _).2 ⟨s, oA, oB, hs, rfl, rfl⟩⟩
    refine ⟨_, _, e1, e2, rfl, fun p => rfl, ⟨Temporaries.indices s, Xumpy.indices_nodup s,
      fun p => Temporaries.mem_indices s p, List.mergeSort_perm _ _⟩, fun ht htot => ?_⟩
    exact List.pairwise_mergeSort (fun u v w => ht u v w) (fun u v => by simpa using htot u v) _
  · rintro ⟨x, y, m', dataB', g1, g2, g3⟩
    have : m' = m := by
      have := (nameInB_iff B names n m).2 hf
      rw [g1] at this
      exact Option.some.inj this
    rw [this, hB] at g2
    injection g2 with g2
    rw [← g2] at g3
    obtain ⟨s, oA, oB, hs, -⟩ := (hcmp x y).1 g3
    exact hno ⟨s, oA, oB, hs⟩

/-- **C132.** It does end when every variable of A found in B is there and has a shape that goes together with its own. -/
theorem C132_ends (A : List (String × Arr V)) (d : String → Option (Saved W U))
    (hall : ∀ e ∈ A, ∀ m, FoundAs B names e.1 m → ∃ dataB a b, dictGet B m = some dataB ∧ Body e.2 a ∧ Body dataB b ∧
      0 ∉ a.shape ∧ 0 ∉ b.shape ∧ ∃ s oA oB, Matches h a.shape b.shape s oA oB) :
    ∃ d', main true sub ulp le B names h A d = .ok d' := by
  induction A generalizing d with
  | nil => exact ⟨d, rfl⟩
  | cons e A ih =>
    obtain ⟨n, dataA⟩ := e
    have ih := fun d => ih d fun e he => hall e (List.mem_cons_of_mem _ he)
    unfold main
    split
    · exact ih _
    · rename_i m h1
      obtain ⟨dataB, a, b, g1, g2, g3, g4, g5, s, oA, oB, g6⟩ := hall _ List.mem_cons_self m ((nameInB_iff B names n m).1 h1)
      rw [g1]
      dsimp only
      rw [(C132_compared h dataA dataB a b _ _ g2 g3 g4 g5).2 ⟨s, oA, oB, g6, rfl, rfl⟩]
      dsimp only
      simp only [Bool.not_true, Bool.false_eq_true, if_false]
      exact ih _

/-- As it is, the program ends with `AttributeError` at the first variable it can compare: a file it writes has nothing in it. -/
theorem C132_flatten_violated (A : List (String × Arr V)) (d d' : String → Option (Saved W U))
    (hm : main false sub ulp le B names h A d = .ok d') :
    d' = d ∧ ∀ e ∈ A, ¬ ∃ x y, Compared B names h e.1 e.2 x y := by
  induction A with
  | nil =>
    unfold main at hm
    injection hm with hm
    exact ⟨hm.symm, by simp⟩
  | cons e A ih =>
    obtain ⟨n, dataA⟩ := e
    unfold main at hm
    have no : main false sub ulp le B names h A d = .ok d' → (¬ ∃ x y, Compared B names h n dataA x y) →
        d' = d ∧ ∀ e ∈ (n, dataA) :: A, ¬ ∃ x y, Compared B names h e.1 e.2 x y := by
      intro hm hno
      obtain ⟨h1, h2⟩ := ih hm
      refine ⟨h1, fun e he => ?_⟩
      rcases List.mem_cons.1 he with rfl | he
      · exact hno
      · exact h2 e he
    split at hm
    · rename_i h1
      refine no hm ?_
      rintro ⟨x, y, m, dataB, h2, -⟩
      rw [h1] at h2; cases h2
    · rename_i m h1
      split at hm
      · cases hm
      · rename_i dataB h2
        split at hm
        · cases hm
        · rename_i h3
          refine no hm ?_
          rintro ⟨x, y, m', dataB', h4, h5, h6⟩
          rw [h1] at h4; injection h4 with h4
          rw [← h4, h2] at h5; injection h5 with h5
          rw [← h5, h3] at h6
          injection h6 with h6
          cases h6
        · simp at hm

end

/-- Points numbered by their coordinates. -/
def grid (s : List Nat) (v : List Nat → Int) : Arr Int := ⟨s, v⟩

def code : List Nat → Int := fun p => p.foldl (fun n i => 10 * n + i) 0

/-- A halo along the second dimension only, or data with two dimensions, ends the program although the first can be reconciled. -/
theorem C132_halo_violated :
    reconcile 3 (grid [4, 10, 2] code) (grid [4, 4, 2] code) = .error .value ∧
    reconcile 3 (grid [10, 4, 2] code) (grid [4, 4, 2] code) = .error .value ∧
    reconcile 3 (grid [4, 4] code) (grid [4, 4] code) = .error .index := ⟨rfl, rfl, rfl⟩

/-- The difference of a variable called `ulp_x` is replaced by the distances of a variable `x` that comes after it. -/
theorem C132_clash_violated : ∃ d',
    main true (fun a b : Int => a - b) (fun a b => (a - b).natAbs) Nat.ble [("ulp_x", grid [1, 1, 1] code), ("x", grid [1, 1, 1] code)]
      [] 3 [("ulp_x", grid [1, 1, 1] fun _ => 7), ("x", grid [1, 1, 1] code)] (fun _ => none) = .ok d' ∧
    ∃ l, d' "ulp_x" = some (.ulps l) := ⟨_, rfl, _, rfl⟩

/-- A with savepoint, rank and halo and another name, B without. -/
example : Body (grid [2, 3, 10, 11, 2] code) ⟨[10, 11, 2], fun p => code (0 :: 0 :: p)⟩ ∧
    Body (grid [4, 5, 2] code) (grid [4, 5, 2] code) ∧
    Matches 3 [10, 11, 2] [4, 5, 2] [4, 5, 2] 3 0 ∧
    FoundAs [("u", grid [4, 5, 2] code)] [("x_wind", "u")] "x_wind" "u" :=
  ⟨.inr ⟨1, 2, [10, 11, 2], rfl, by decide, rfl⟩, .inl ⟨by decide, rfl⟩,
    ⟨4, 5, 2, [], rfl, .inr (.inl ⟨by decide, rfl, rfl, rfl, rfl⟩)⟩, .inr ⟨by decide, rfl⟩⟩

example : ∃ d', main true (fun a b : Int => a - b) (fun a b => (a - b).natAbs) Nat.ble [("u", grid [4, 5, 2] code)]
    [("x_wind", "u")] 3 [("x_wind", grid [2, 3, 10, 11, 2] code), ("w", grid [1, 1, 1] code)] (fun _ => none) = .ok d' ∧
    (∃ D, d' "x_wind" = some (.diff D) ∧ D.shape = [4, 5, 2] ∧ D.get [0, 0, 0] = 330 ∧ D.get [1, 2, 1] = 330) ∧
    (d' "w").isNone = true := ⟨_, rfl, ⟨_, rfl, rfl, rfl, rfl⟩, rfl⟩

end NDSL.BestGuess
