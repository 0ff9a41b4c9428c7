import Mathlib.Tactic.Tauto
import Verif.Spec.CornerArrays
import Verif.Lemmas.CornerStencils

/-! Lemmas for the array corner fills. -/
namespace NDSL.Corner

open Indexing

variable {K : Type} [Mul K]

theorem mem_loop2 {α : Type} {n : Nat} {body : Int → Int → List α} {a : α} :
    a ∈ loop2 n body ↔ ∃ i j : Int, 1 ≤ i ∧ i ≤ n ∧ 1 ≤ j ∧ j ≤ n ∧ a ∈ body i j := by
  simp only [loop2, List.mem_flatMap, List.mem_range]
  constructor
  · rintro ⟨i, hi, j, hj, h⟩
    exact ⟨_, _, by omega, by omega, by omega, by omega, h⟩
  · rintro ⟨i, j, h1, h2, h3, h4, h⟩
    refine ⟨(i - 1).toNat, by omega, (j - 1).toNat, by omega, ?_⟩
    have e1 : (((i - 1).toNat : Nat) : Int) + 1 = i := by omega
    have e2 : (((j - 1).toNat : Nat) : Int) + 1 = j := by omega
    rw [e1, e2]; exact h

/-- A point no assignment writes keeps its value. -/
theorem runArr_untouched (rows : Int) (lev : Nat → Bool) (mysign : K) (l : List PA)
    (mem : Arr → Storage K) (s : Arr) (i j : Int) (k : Nat)
    (h : (∀ b ∈ l, b.targets rows s i j = false) ∨ lev k = false) :
    runArr rows lev mysign l mem s i j k = mem s i j k := by
  unfold runArr
  induction l generalizing mem with
  | nil => rfl
  | cons b l ih =>
    rw [List.foldl_cons, ih]
    · rw [PA.exec, if_neg]
      rintro ⟨h1, h2⟩
      rcases h with h | h
      · rw [h b (List.mem_cons_self ..)] at h1; cases h1
      · rw [h] at h2; cases h2
    · rcases h with h | h
      · exact Or.inl fun b hb => h b (List.mem_cons_of_mem _ hb)
      · exact Or.inr h

theorem runArr_append (rows : Int) (lev : Nat → Bool) (mysign : K) (l l' : List PA)
    (mem : Arr → Storage K) : runArr rows lev mysign (l ++ l') mem =
      runArr rows lev mysign l' (runArr rows lev mysign l mem) := by
  simp [runArr, List.foldl_append]

/-- A point written by an assignment, when the later ones that write it give the same value and
nothing that is read is written. -/
theorem runArr_written (rows : Int) (lev : Nat → Bool) (mysign : K) (pre post : List PA) (a : PA)
    (mem : Arr → Storage K) (s : Arr) (i j : Int) (k : Nat) (hk : lev k = true)
    (ha : a.targets rows s i j = true)
    (hpost : ∀ b ∈ post, b.targets rows s i j = true →
      b.src = a.src ∧ b.si = a.si ∧ b.sj = a.sj ∧ b.sign = a.sign)
    (hread : ∀ b ∈ pre ++ a :: post, b.targets rows a.src a.si a.sj = false) :
    runArr rows lev mysign (pre ++ a :: post) mem s i j k =
      if a.sign then mysign * mem a.src a.si a.sj k else mem a.src a.si a.sj k := by
  induction post using List.reverseRecOn with
  | nil =>
    rw [runArr_append]
    simp only [runArr, List.foldl_cons, List.foldl_nil]
    rw [PA.exec, if_pos ⟨ha, hk⟩]
    have := runArr_untouched rows lev mysign pre mem a.src a.si a.sj k
      (Or.inl fun b hb => hread b (List.mem_append_left _ hb))
    unfold runArr at this
    rw [this]
  | append_singleton l b ih =>
    have hl := ih (fun c hc => hpost c (List.mem_append_left _ hc)) (fun c hc => hread c (by
      simp only [List.mem_append, List.mem_cons] at hc ⊢; tauto))
    rw [show pre ++ a :: (l ++ [b]) = (pre ++ a :: l) ++ [b] by simp, runArr_append]
    have hu : runArr rows lev mysign (pre ++ a :: l) mem a.src a.si a.sj k =
        mem a.src a.si a.sj k :=
      runArr_untouched _ _ _ _ _ _ _ _ _ (Or.inl fun c hc => hread c (by
        simp only [List.mem_append, List.mem_cons] at hc ⊢; tauto))
    simp only [runArr, List.foldl_cons, List.foldl_nil]
    rw [PA.exec]
    by_cases hb : b.targets rows s i j = true
    · obtain ⟨h1, h2, h3, h4⟩ := hpost b (by simp) hb
      rw [if_pos ⟨hb, hk⟩, h1, h2, h3, h4]
      unfold runArr at hu
      rw [hu]
    · rw [if_neg (fun h => hb h.1)]
      exact hl

/-- The source of a corner point is in no corner if the tile is at least as wide as the halo. -/
theorem source_not_corner {e : Ext} {n : Nat} (hn : AtLeast e n) {dir : Direction}
    {st st' : Stagger} {east north : Bool} {p p' : Point}
    (hp : InCorner e st n n east north p) (hs : IsSource e dir st st' east north p p')
    (east' north' : Bool) : ¬ InCorner e st' n n east' north' p' := by
  intro hc
  obtain ⟨s1, s2⟩ := st'
  obtain ⟨a, b⟩ := p'
  obtain ⟨hs1, hs2⟩ := hs
  simp only [InCorner] at hp hc
  simp only [AtLeast] at hn
  generalize disp e st east north p = d at *
  obtain ⟨u, v⟩ := d
  have hc1 : (s1.pos a - (vertex e east north).1, s2.pos b - (vertex e east north).2) =
      disp e (s1, s2) east north (a, b) := rfl
  rw [← hc1] at hs1 hs2
  simp only [disp] at hc
  generalize s1.pos a = P at *
  generalize s2.pos b = Q at *
  cases dir <;> cases east <;> cases north <;> cases east' <;> cases north' <;>
    simp [vertex, Beyond, SameSide, turnLeft, turnRight] at hp hc hs1 hs2 <;> omega

/-- A point is in at most one corner of a tile that is not empty. -/
theorem corner_unique {e : Ext} (hn : AtLeast e 1) {st : Stagger} {n n' : Nat}
    {east north east' north' : Bool} {p : Point} (h : InCorner e st n n east north p)
    (h' : InCorner e st n' n' east' north' p) : east = east' ∧ north = north' := by
  simp only [InCorner, disp, AtLeast] at *
  generalize st.1.pos p.1 = P at *
  generalize st.2.pos p.2 = Q at *
  cases east <;> cases north <;> cases east' <;> cases north' <;>
    simp [vertex, Beyond] at h h' ⊢ <;> omega

/-- A list of assignments each of which fills one corner point from its source, and which
covers all corner points, fills the corners. -/
theorem filledAt_of (g : GridIndexing) (n : Nat) (rows : Int) (lev : Nat → Bool) (mysign : K)
    (l : List PA) (st : Arr → Stagger) (dir : Arr → Direction) (neg : Bool → Bool → Bool)
    (hn1 : AtLeast (gridExt g) 1) (hn : AtLeast (gridExt g) n)
    (h1 : ∀ b ∈ l, b.rowsFrom = false ∧ ∃ east north, hasCorner g east north = true ∧
      InCorner (gridExt g) (st b.dst) n n east north (b.di, b.dj) ∧
      IsSource (gridExt g) (dir b.dst) (st b.dst) (st b.src) east north (b.di, b.dj) (b.si, b.sj) ∧
      b.sign = neg east north)
    (mem : Arr → Storage K) (s s' : Arr) (hss : ∀ b ∈ l, b.dst = s → b.src = s')
    (h2 : ∀ east north p, hasCorner g east north = true →
      InCorner (gridExt g) (st s) n n east north p → ∃ b ∈ l, b.dst = s ∧ (b.di, b.dj) = p) :
    FilledAt g lev (dir s) (st s) (st s') n
      (fun east north v => if neg east north then mysign * v else v) (mem s') (mem s)
      (runArr rows lev mysign l mem s) := by
  have htgt : ∀ b ∈ l, ∀ s i j, b.targets rows s i j = true ↔ s = b.dst ∧ (i, j) = (b.di, b.dj) := by
    intro b hb s i j
    simp [PA.targets, (h1 b hb).1, and_assoc]
  constructor
  · intro east north p p' hc hp hs k hk
    obtain ⟨a, ha, had, hap⟩ := h2 east north p hc hp
    obtain ⟨pre, post, rfl⟩ := List.append_of_mem ha
    -- every assignment to this point takes the same source
    have hsame : ∀ b ∈ pre ++ a :: post, b.targets rows s p.1 p.2 = true →
        b.src = s' ∧ (b.si, b.sj) = p' ∧ b.sign = neg east north := by
      intro b hb hbt
      obtain ⟨h3, h4⟩ := (htgt b hb _ _ _).mp hbt
      obtain ⟨_, east', north', _, h6, h7, h8⟩ := h1 b hb
      have hsrc := hss b hb h3.symm
      rw [← h4, ← h3] at h6 h7
      obtain ⟨rfl, rfl⟩ := corner_unique hn1 hp h6
      rw [hsrc] at h7
      exact ⟨hsrc, (source_unique hs h7).symm, h8⟩
    have hat : a.targets rows s p.1 p.2 = true := (htgt a ha _ _ _).mpr ⟨had.symm, hap.symm⟩
    obtain ⟨e1, e2, e3⟩ := hsame a ha hat
    rw [runArr_written rows lev mysign pre post a mem s p.1 p.2 k hk hat ?_ ?_]
    · have e4 : a.si = p'.1 := by rw [← e2]
      have e5 : a.sj = p'.2 := by rw [← e2]
      rw [e1, e3, e4, e5]
    · intro b hb hbt
      obtain ⟨f1, f2, f3⟩ := hsame b (by simp [hb]) hbt
      rw [← e2] at f2
      simp only [Prod.mk.injEq] at f2
      exact ⟨f1.trans e1.symm, f2.1, f2.2, f3.trans e3.symm⟩
    · intro b hb
      rw [Bool.eq_false_iff]
      intro hbt
      obtain ⟨h3, h4⟩ := (htgt b hb _ _ _).mp hbt
      obtain ⟨_, east', north', _, h6, _, _⟩ := h1 b hb
      rw [← h3, ← h4, e1] at h6
      refine source_not_corner (dir := dir s) hn hp (p' := (a.si, a.sj)) ?_ east' north' h6
      rw [e2]; exact hs
  · intro p k h
    refine runArr_untouched rows lev mysign l mem s p.1 p.2 k ?_
    rcases h with h | h
    · refine Or.inl fun b hb => ?_
      rw [Bool.eq_false_iff]
      intro hbt
      obtain ⟨h3, h4⟩ := (htgt b hb _ _ _).mp hbt
      obtain ⟨_, east, north, h5, h6, _⟩ := h1 b hb
      rw [← h3, ← h4] at h6
      exact h east north h5 h6
    · exact Or.inr h

/-- The same when an assignment may write several points and later ones correct it: for each
corner point the last assignment to it takes the source. -/
theorem filledAt_of_last (g : GridIndexing) (n : Nat) (rows : Int) (lev : Nat → Bool) (mysign : K)
    (l : List PA) (st : Stagger) (dir : Direction)
    (hn : AtLeast (gridExt g) n)
    (h1 : ∀ b ∈ l, b.src = .x ∧ b.sign = false ∧ ∀ s i j, b.targets rows s i j = true →
      ∃ east north, hasCorner g east north = true ∧
      InCorner (gridExt g) st n n east north (i, j))
    (mem : Arr → Storage K)
    (h2 : ∀ east north p, hasCorner g east north = true →
      InCorner (gridExt g) st n n east north p → ∃ pre a post, l = pre ++ a :: post ∧
        a.targets rows .x p.1 p.2 = true ∧ IsSource (gridExt g) dir st st east north p (a.si, a.sj) ∧
        ∀ b ∈ post, b.targets rows .x p.1 p.2 = true → b.si = a.si ∧ b.sj = a.sj) :
    FilledAt g lev dir st st n (fun _ _ v => v) (mem .x) (mem .x)
      (runArr rows lev mysign l mem .x) := by
  constructor
  · intro east north p p' hc hp hs k hk
    obtain ⟨pre, a, post, rfl, hat, hsrc, hpost⟩ := h2 east north p hc hp
    have ha := h1 a (by simp)
    rw [runArr_written rows lev mysign pre post a mem .x p.1 p.2 k hk hat ?_ ?_]
    · have := source_unique hs hsrc
      subst this
      rw [ha.2.1, ha.1]; rfl
    · intro b hb hbt
      have hb1 := h1 b (by simp [hb])
      obtain ⟨f1, f2⟩ := hpost b hb hbt
      exact ⟨hb1.1.trans ha.1.symm, f1, f2, hb1.2.1.trans ha.2.1.symm⟩
    · intro b hb
      rw [Bool.eq_false_iff]
      intro hbt
      obtain ⟨east', north', _, h6⟩ := (h1 b hb).2.2 _ _ _ hbt
      exact source_not_corner hn hp hsrc east' north' h6
  · intro p k h
    refine runArr_untouched rows lev mysign l mem .x p.1 p.2 k ?_
    rcases h with h | h
    · refine Or.inl fun b hb => ?_
      rw [Bool.eq_false_iff]
      intro hbt
      obtain ⟨east, north, h5, h6⟩ := (h1 b hb).2.2 _ _ _ hbt
      exact h east north h5 h6
    · exact Or.inr h

/-- The iterations before and after an iteration of a double loop. -/
theorem loop2_split {α : Type} {n : Nat} {body : Int → Int → List α} {i j : Int} (hi1 : 1 ≤ i)
    (hi : i ≤ n) (hj1 : 1 ≤ j) (hj : j ≤ n) :
    ∃ pre post, loop2 n body = pre ++ body i j ++ post ∧
      ∀ x ∈ post, ∃ i' j', (i < i' ∨ (i' = i ∧ j < j')) ∧ i' ≤ n ∧ 1 ≤ j' ∧ j' ≤ n ∧
        x ∈ body i' j' := by
  obtain ⟨a, rfl⟩ : ∃ a : Nat, i = (a : Int) + 1 := ⟨(i - 1).toNat, by omega⟩
  obtain ⟨b, rfl⟩ : ∃ b : Nat, j = (b : Int) + 1 := ⟨(j - 1).toNat, by omega⟩
  obtain ⟨s, t, hst⟩ := List.append_of_mem (List.mem_range.mpr (show a < n by omega))
  obtain ⟨u, v, huv⟩ := List.append_of_mem (List.mem_range.mpr (show b < n by omega))
  have pw := List.pairwise_lt_range (n := n)
  have pw2 := pw
  rw [hst] at pw
  rw [huv] at pw2
  have ht : ∀ x ∈ t, a < x := (List.pairwise_cons.mp (List.pairwise_append.mp pw).2.1).1
  have hv : ∀ x ∈ v, b < x := (List.pairwise_cons.mp (List.pairwise_append.mp pw2).2.1).1
  have htn : ∀ x ∈ t, x < n := fun x hx => List.mem_range.mp (by rw [hst]; simp [hx])
  have hvn : ∀ x ∈ v, x < n := fun x hx => List.mem_range.mp (by rw [huv]; simp [hx])
  let row := fun (i : Nat) => (List.range n).flatMap fun (j : Nat) =>
    body ((i : Int) + 1) ((j : Int) + 1)
  have hrow : row a = (u.flatMap fun (j : Nat) => body ((a : Int) + 1) ((j : Int) + 1)) ++
      body ((a : Int) + 1) ((b : Int) + 1) ++
      (v.flatMap fun (j : Nat) => body ((a : Int) + 1) ((j : Int) + 1)) := by
    simp only [row, huv, List.flatMap_append, List.flatMap_cons, List.append_assoc]
  refine ⟨s.flatMap row ++ (u.flatMap fun (j : Nat) => body ((a : Int) + 1) ((j : Int) + 1)),
    (v.flatMap fun (j : Nat) => body ((a : Int) + 1) ((j : Int) + 1)) ++ t.flatMap row, ?_, ?_⟩
  · have : loop2 n body = (List.range n).flatMap row := rfl
    rw [this, hst, List.flatMap_append, List.flatMap_cons, hrow]
    simp only [List.append_assoc]
  · intro x hx
    rw [List.mem_append] at hx
    rcases hx with hx | hx
    · obtain ⟨j', h1, h2⟩ := List.mem_flatMap.mp hx
      have := hv j' h1
      have := hvn j' h1
      exact ⟨_, _, Or.inr ⟨rfl, by omega⟩, by omega, by omega, by omega, h2⟩
    · obtain ⟨i', h1, h2⟩ := List.mem_flatMap.mp hx
      obtain ⟨j', h3, h4⟩ := List.mem_flatMap.mp h2
      have := ht i' h1
      have := htn i' h1
      have := List.mem_range.mp h3
      exact ⟨_, _, Or.inl (by omega), by omega, by omega, by omega, h4⟩

end NDSL.Corner
