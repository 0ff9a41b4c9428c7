import Verif.Model.ViewIndex
import Verif.Props.Views
import Mathlib.Data.List.Forall2
import Mathlib.Data.List.Nodup
/-
Property C102: reading and writing through views.
-/
namespace NDSL.View
variable {V : Type}

/-! ### Specification -/

/-- Where a slice begins and where it ends: counted from the view's point of reference, by default the compute domain. -/
def lower (v : Option ViewKind) (d : DimSpec) (a : Option Int) : Int := (a.map ((viewRef v d).1 + ·)).getD d.origin
def upper (v : Option ViewKind) (d : DimSpec) (b : Option Int) : Int :=
  (b.map ((viewRef v d).2 + ·)).getD (d.origin + d.extent)

/-- The index `ks` of a selection means the place `gs` of the array: integers name a place, the `k`-th point of a slice is
`k` steps from its begin, before its end. -/
inductive Means (v : Option ViewKind) : List DimSpec → List Entry → List Nat → List Int → Prop
  | nil : Means v [] [] [] []
  | int {ds es ks gs} (d : DimSpec) (i : Int) (h : Means v ds es ks gs) :
    Means v (d :: ds) (.int i :: es) ks (((viewRef v d).1 + i) :: gs)
  | up {ds es ks gs} (d : DimSpec) (a b st : Option Int) (k : Nat) (h : Means v ds es ks gs) (hs : 0 < st.getD 1)
    (hk : lower v d a + k * st.getD 1 < upper v d b) :
    Means v (d :: ds) (.sl a b st :: es) (k :: ks) ((lower v d a + k * st.getD 1) :: gs)
  | down {ds es ks gs} (d : DimSpec) (a b st : Option Int) (k : Nat) (h : Means v ds es ks gs) (hs : st.getD 1 < 0)
    (hk : upper v d b < lower v d a + k * st.getD 1) :
    Means v (d :: ds) (.sl a b st :: es) (k :: ks) ((lower v d a + k * st.getD 1) :: gs)

/-- An entry that stays inside of the array. -/
def Within (v : Option ViewKind) (d : DimSpec) : Entry → Prop
  | .int i => 0 ≤ (viewRef v d).1 + i ∧ (viewRef v d).1 + i < d.shape
  | .sl a b st => 0 ≤ lower v d a ∧ lower v d a ≤ d.shape ∧ 0 ≤ upper v d b ∧ upper v d b ≤ d.shape ∧
    (0 < st.getD 1 ∨ (st.getD 1 < 0 ∧ lower v d a < d.shape ∧ upper v d b < d.shape))
  | .new => False

instance (v : Option ViewKind) (d : DimSpec) (e : Entry) : Decidable (Within v d e) := by
  cases e <;> unfold Within <;> infer_instance

/-- An index of an array of this shape. -/
def Fits (shape ks : List Nat) : Prop := List.Forall₂ (fun n k => k < n) shape ks

/-! ### Proofs -/

theorem count_iff (lo hi s : Int) (hs : s ≠ 0) (k : Nat) :
    k < countOf lo hi s ↔ (0 < s ∧ lo + k * s < hi) ∨ (s < 0 ∧ hi < lo + k * s) := by
  unfold countOf
  by_cases h : 0 < s
  · rw [if_pos h]
    have key : ((k : Int) ≤ (hi - lo - 1) / s) ↔ (k : Int) * s ≤ hi - lo - 1 := Int.le_ediv_iff_mul_le h
    by_cases h2 : lo < hi
    · rw [if_pos h2]
      have := Int.ediv_nonneg (show 0 ≤ hi - lo - 1 by omega) (Int.le_of_lt h)
      constructor
      · intro hk; left; exact ⟨h, by have := key.mp (by omega); omega⟩
      · rintro (⟨-, hk⟩ | ⟨hk, -⟩)
        · have := key.mpr (by omega); omega
        · omega
    · rw [if_neg h2]
      constructor
      · intro hk; omega
      · rintro (⟨-, hk⟩ | ⟨hk, -⟩)
        · have : 0 ≤ (k : Int) * s := Int.mul_nonneg (by omega) (Int.le_of_lt h)
          omega
        · omega
  · have h' : 0 < -s := by omega
    rw [if_neg h]
    have key : ((k : Int) ≤ (lo - hi - 1) / (-s)) ↔ (k : Int) * (-s) ≤ lo - hi - 1 := Int.le_ediv_iff_mul_le h'
    rw [Int.mul_neg] at key
    by_cases h2 : hi < lo
    · rw [if_pos h2]
      have := Int.ediv_nonneg (show 0 ≤ lo - hi - 1 by omega) (Int.le_of_lt h')
      constructor
      · intro hk; right; exact ⟨by omega, by have := key.mp (by omega); omega⟩
      · rintro (⟨hk, -⟩ | ⟨-, hk⟩)
        · omega
        · have := key.mpr (by omega); omega
    · rw [if_neg h2]
      constructor
      · intro hk; omega
      · rintro (⟨hk, -⟩ | ⟨-, hk⟩)
        · omega
        · have : 0 ≤ (k : Int) * (-s) := Int.mul_nonneg (by omega) (Int.le_of_lt h')
          rw [Int.mul_neg] at this
          omega

/-- Steps are not zero. -/
def Good : List Pick → Prop
  | [] => True
  | .run _ s _ :: l => s ≠ 0 ∧ Good l
  | _ :: l => Good l

theorem fits_nil {ks : List Nat} : Fits [] ks ↔ ks = [] := by
  constructor
  · intro h; cases h; rfl
  · rintro rfl; exact .nil

theorem fits_cons {n : Nat} {l ks : List Nat} : Fits (n :: l) ks ↔ ∃ k ks', ks = k :: ks' ∧ k < n ∧ Fits l ks' := by
  constructor
  · intro h; cases h with | cons a b => exact ⟨_, _, rfl, a, b⟩
  · rintro ⟨k, ks', rfl, a, b⟩; exact .cons a b

/-- The selected places, each by one index. -/
theorem locate_iff : ∀ (p : List Pick), Good p → ∀ (g : List Int) (ks : List Nat),
    locate p g = some ks ↔ Fits (shapeOf p) ks ∧ place p ks = g
  | [], _, g, ks => by
    cases g with
    | nil => simp [locate, shapeOf, place, fits_nil, eq_comm]
    | cons a g => simp [locate, shapeOf, place]
  | .at i :: p, hg, g, ks => by
    cases g with
    | nil => simp [locate, shapeOf, place]
    | cons a g =>
      have ih := locate_iff p hg g ks
      rw [locate, shapeOf, place]
      by_cases h : a = i
      · rw [if_pos h, ih, h]; simp
      · rw [if_neg h]; simp [Ne.symm h]
  | .new :: p, hg, g, ks => by
    have ih := locate_iff p hg g
    rw [locate, shapeOf, Option.map_eq_some_iff]
    constructor
    · rintro ⟨k', hk, rfl⟩
      obtain ⟨h1, h2⟩ := (ih k').mp hk
      exact ⟨.cons (by decide) h1, by rw [place]; exact h2⟩
    · rintro ⟨h1, h2⟩
      obtain ⟨k, ks', rfl, hk, h3⟩ := fits_cons.mp h1
      rw [place] at h2
      exact ⟨ks', (ih ks').mpr ⟨h3, h2⟩, by rw [show k = 0 by omega]⟩
  | .run f s c :: p, hg, g, ks => by
    cases g with
    | nil =>
      simp only [locate, shapeOf]
      constructor
      · intro h; cases h
      · rintro ⟨h1, h2⟩
        obtain ⟨k, ks', rfl, hk, h3⟩ := fits_cons.mp h1
        simp [place] at h2
    | cons a g =>
      have ih := locate_iff p hg.2 g
      have hs := hg.1
      rw [locate, shapeOf]
      constructor
      · intro h
        split at h
        · rename_i hc
          rw [Option.map_eq_some_iff] at h
          obtain ⟨k', hk, rfl⟩ := h
          obtain ⟨h1, h2⟩ := (ih k').mp hk
          refine ⟨.cons (by omega) h1, ?_⟩
          rw [place, h2]
          have e : ((((a - f) / s).toNat : Nat) : Int) = (a - f) / s := by omega
          rw [e, Int.ediv_mul_cancel (Int.dvd_of_emod_eq_zero hc.1)]
          congr 1; omega
        · cases h
      · rintro ⟨h1, h2⟩
        obtain ⟨k, ks', rfl, hk, h3⟩ := fits_cons.mp h1
        rw [place, List.cons.injEq] at h2
        have e : a - f = k * s := by omega
        have e2 : (a - f) / s = k := by rw [e]; exact Int.mul_ediv_cancel _ hs
        rw [if_pos ⟨by rw [e]; exact Int.mul_emod_left _ _, by omega, by omega⟩, (ih ks').mpr ⟨h3, h2.2⟩, e2]
        rfl

theorem picks_good : ∀ (es : List Entry) (shape : List Int) (p : List Pick), picks shape es = .ok p → Good p
  | [], shape, p, h => by
    rw [picks] at h
    have h' : shape.map (fun n => Pick.run 0 1 n.toNat) = p := by cases h; rfl
    rw [← h']
    clear h h'
    induction shape with
    | nil => trivial
    | cons n shape ih => exact ⟨by decide, ih⟩
  | .new :: es, shape, p, h => by
    rw [picks] at h
    cases hp : picks shape es with
    | error x => rw [hp] at h; cases h
    | ok p' => rw [hp] at h; cases h; exact picks_good es shape p' hp
  | .int i :: es, [], p, h => by rw [picks] at h; cases h
  | .sl a b s :: es, [], p, h => by rw [picks] at h; cases h
  | .int i :: es, n :: shape, p, h => by
    rw [picks] at h
    split at h
    · cases h
    · cases hp : picks shape es with
      | error x => rw [hp] at h; cases h
      | ok p' => rw [hp] at h; cases h; exact picks_good es shape p' hp
  | .sl a b s :: es, n :: shape, p, h => by
    rw [picks] at h
    split at h
    · cases h
    · rename_i q hq
      cases hp : picks shape es with
      | error x => rw [hp] at h; cases h
      | ok p' =>
        rw [hp] at h; cases h
        unfold pickSlice at hq
        simp only at hq
        split at hq
        · cases hq
        · rename_i hs; cases hq; exact ⟨hs, picks_good es shape p' hp⟩

/-- An entry of the index given to the array. -/
def shifted (v : Option ViewKind) (d : DimSpec) (e : Entry) : Except Err Entry :=
  match v with
  | none => .ok (computeEntry d e)
  | some k => boundaryEntry k d e

theorem clip_id {n s a : Int} (h0 : 0 ≤ a) (h1 : a ≤ n) (h2 : s < 0 → a < n) : clip n s a = a := by
  unfold clip
  by_cases hs : s < 0
  · have := h2 hs
    simp only [if_pos hs]
    rw [if_neg (by omega)]
    omega
  · simp only [if_neg hs]
    rw [if_neg (by omega)]
    omega

/-- The shifted slice is the one meant. -/
theorem shifted_slice (v : Option ViewKind) (d : DimSpec) (a b st : Option Int) (h : Within v d (.sl a b st)) :
    shifted v d (.sl a b st) = .ok (.sl (some (lower v d a)) (some (upper v d b)) st) := by
  cases v with
  | none =>
    have key : ∀ (c : Option Int) (dflt : Int), 0 ≤ (c.map (d.origin + ·)).getD dflt →
        (shiftIndex c d.origin d.extent).getD dflt = (c.map (d.origin + ·)).getD dflt := by
      intro c dflt hc
      cases c with
      | none => rfl
      | some x =>
        simp only [shiftIndex, Option.map_some, Option.getD_some] at hc ⊢
        rw [if_neg (by omega)]; omega
    obtain ⟨h1, -, h3, -⟩ := h
    unfold lower at h1
    unfold upper at h3
    simp only [shifted, computeEntry, lower, upper, viewRef]
    rw [key a _ h1, key b _ h3]
  | some k =>
    have key : ∀ (c : Option Int) (dflt r : Int), (c.map (· + r)).getD dflt = (c.map (r + ·)).getD dflt := by
      intro c dflt r
      cases c with
      | none => rfl
      | some x => simp only [Option.map_some, Option.getD_some]; omega
    simp only [shifted, boundaryEntry, lower, upper, viewOffset_ref, key]

theorem shifted_int (v : Option ViewKind) (d : DimSpec) (i : Int) :
    shifted v d (.int i) = .ok (.int ((viewRef v d).1 + i)) := by
  cases v with
  | none => simp only [shifted, computeEntry, viewRef, Int.add_comm]
  | some k => simp only [shifted, boundaryEntry, viewOffset_ref, Int.add_comm]

/-- Entries of the whole index. -/
def shiftAll (v : Option ViewKind) : List DimSpec → List Entry → Except Err (List Entry)
  | d :: ds, e :: es =>
    match shifted v d e with
    | .error x => .error x
    | .ok e' => (shiftAll v ds es).map (e' :: ·)
  | _, _ => .ok []

theorem arrayIndex_eq (v : Option ViewKind) (ds : List DimSpec) (index : Index) (h : index.entries.length ≤ ds.length) :
    arrayIndex v ds index = shiftAll v ds (fill index.entries ds.length) := by
  cases v with
  | none =>
    have key : ∀ (ds : List DimSpec) (es : List Entry), shiftAll none ds es = .ok (List.zipWith computeEntry ds es) := by
      intro ds
      induction ds with
      | nil => intro es; cases es <;> rfl
      | cons d ds ih =>
        intro es
        cases es with
        | nil => rfl
        | cons e es => rw [shiftAll, ih]; rfl
    rw [arrayIndex, computeIndex, if_neg (by omega), key]
  | some k =>
    have key : ∀ (ds : List DimSpec) (es : List Entry), shiftAll (some k) ds es = boundaryEntries k ds es := by
      intro ds
      induction ds with
      | nil => intro es; cases es <;> rfl
      | cons d ds ih =>
        intro es
        cases es with
        | nil => rfl
        | cons e es => rw [shiftAll, boundaryEntries, ih]; rfl
    rw [arrayIndex, boundaryIndex, if_neg (by omega), key]

theorem pick_within (v : Option ViewKind) (d : DimSpec) (a b st : Option Int) (h : Within v d (.sl a b st)) :
    st.getD 1 ≠ 0 ∧ pickSlice d.shape (some (lower v d a)) (some (upper v d b)) st =
      .ok (.run (lower v d a) (st.getD 1) (countOf (lower v d a) (upper v d b) (st.getD 1))) := by
  obtain ⟨h1, h2, h3, h4, h5⟩ := h
  have hs : st.getD 1 ≠ 0 := by omega
  refine ⟨hs, ?_⟩
  unfold pickSlice
  simp only [firstOf, lastOf]
  rw [if_neg hs, clip_id h1 h2 (by omega), clip_id h3 h4 (by omega)]

/-- The selection is the one meant. -/
theorem picks_means (v : Option ViewKind) : ∀ (ds : List DimSpec) (es : List Entry), List.Forall₂ (Within v) ds es →
    ∃ es' p, shiftAll v ds es = .ok es' ∧ picks (ds.map (·.shape)) es' = .ok p ∧
      ∀ ks gs, Means v ds es ks gs ↔ Fits (shapeOf p) ks ∧ place p ks = gs
  | [], [], _ => by
    refine ⟨[], [], rfl, rfl, fun ks gs => ?_⟩
    rw [shapeOf, fits_nil]
    constructor
    · intro h; cases h; exact ⟨rfl, rfl⟩
    · rintro ⟨rfl, rfl⟩; exact .nil
  | d :: ds, e :: es, h => by
    cases h with
    | cons h1 h2 =>
      obtain ⟨es', p, e1, e2, e3⟩ := picks_means v ds es h2
      cases e with
      | new => exact absurd h1 (fun h => h)
      | int i =>
        refine ⟨.int ((viewRef v d).1 + i) :: es', .at ((viewRef v d).1 + i) :: p, ?_, ?_, ?_⟩
        · rw [shiftAll, shifted_int, e1]; rfl
        · rw [List.map_cons, picks, npInt_id h1.1 h1.2, e2]; rfl
        · intro ks gs
          rw [shapeOf, place]
          constructor
          · intro h; cases h with
            | int _ _ h => obtain ⟨a, b⟩ := (e3 _ _).mp h; exact ⟨a, by rw [b]⟩
          · rintro ⟨a, rfl⟩; exact .int d i ((e3 _ _).mpr ⟨a, rfl⟩)
      | sl a b st =>
        obtain ⟨hs, hp⟩ := pick_within v d a b st h1
        refine ⟨.sl (some (lower v d a)) (some (upper v d b)) st :: es',
          .run (lower v d a) (st.getD 1) (countOf (lower v d a) (upper v d b) (st.getD 1)) :: p, ?_, ?_, ?_⟩
        · rw [shiftAll, shifted_slice v d a b st h1, e1]; rfl
        · rw [List.map_cons, picks, hp, e2]; rfl
        · intro ks gs
          rw [shapeOf, fits_cons]
          constructor
          · intro h
            cases h with
            | up _ _ _ _ k h hs' hk =>
              obtain ⟨x, y⟩ := (e3 _ _).mp h
              exact ⟨⟨_, _, rfl, (count_iff _ _ _ hs k).mpr (Or.inl ⟨hs', hk⟩), x⟩, by rw [place, y]⟩
            | down _ _ _ _ k h hs' hk =>
              obtain ⟨x, y⟩ := (e3 _ _).mp h
              exact ⟨⟨_, _, rfl, (count_iff _ _ _ hs k).mpr (Or.inr ⟨hs', hk⟩), x⟩, by rw [place, y]⟩
          · rintro ⟨⟨k, ks', rfl, hk, x⟩, rfl⟩
            rw [place]
            rcases (count_iff _ _ _ hs k).mp hk with ⟨hs', hk'⟩ | ⟨hs', hk'⟩
            · exact .up d a b st k ((e3 _ _).mpr ⟨x, rfl⟩) hs' hk'
            · exact .down d a b st k ((e3 _ _).mpr ⟨x, rfl⟩) hs' hk'

/-- C102: an index of integers and slices with steps, forward or backward, reads the elements it means, relative to the
compute domain, and its selection has an element for each of them. -/
theorem C102_read (v : Option ViewKind) (ds : List DimSpec) (data : List Int → V) (index : Index) (hd : 0 < ds.length)
    (hl : index.entries.length ≤ ds.length) (hw : List.Forall₂ (Within v) ds (fill index.entries ds.length)) :
    ∃ r, getItem v ds data index = .ok r ∧
      (∀ ks, Fits r.shape ks ↔ ∃ gs, Means v ds (fill index.entries ds.length) ks gs) ∧
      ∀ ks gs, Means v ds (fill index.entries ds.length) ks gs → r.get ks = data gs := by
  obtain ⟨es', p, e1, e2, e3⟩ := picks_means v ds _ hw
  refine ⟨⟨shapeOf p, fun idx => data (place p idx)⟩, ?_, fun ks => ?_, fun ks gs h => ?_⟩
  · rw [getItem, if_pos hd, arrayIndex_eq v ds index hl, e1]
    simp only [Except.bind, npGet, e2]
    rfl
  · constructor
    · intro h; exact ⟨_, (e3 ks _).mpr ⟨h, rfl⟩⟩
    · rintro ⟨gs, h⟩; exact ((e3 ks gs).mp h).1
  · exact congrArg data ((e3 ks gs).mp h).2

/-- C102: writing changes exactly these elements, each to the value for it. -/
theorem C102_write (v : Option ViewKind) (ds : List DimSpec) (data : List Int → V) (index : Index) (value : List Nat → V)
    (hl : index.entries.length ≤ ds.length) (hw : List.Forall₂ (Within v) ds (fill index.entries ds.length)) :
    ∃ data', setItem v ds data index value = .ok data' ∧
      (∀ ks gs, Means v ds (fill index.entries ds.length) ks gs → data' gs = value ks) ∧
      ∀ gs, (¬ ∃ ks, Means v ds (fill index.entries ds.length) ks gs) → data' gs = data gs := by
  obtain ⟨es', p, e1, e2, e3⟩ := picks_means v ds _ hw
  have hg := picks_good _ _ _ e2
  refine ⟨fun g => match locate p g with | some idx => value idx | none => data g, ?_, fun ks gs h => ?_, fun gs h => ?_⟩
  · rw [setItem, arrayIndex_eq v ds index hl, e1]
    simp only [Except.bind, npSet, e2]
    rfl
  · simp only [(locate_iff p hg gs ks).mpr ((e3 ks gs).mp h)]
  · cases hc : locate p gs with
    | none => simp only [hc]
    | some ks => exact absurd ⟨ks, (e3 ks gs).mpr ((locate_iff p hg gs ks).mp hc)⟩ h

/-- C102: whatever the index, also with new axes, out of range or through a corner view: what was written through it is
read through it. -/
theorem C102_write_read (v : Option ViewKind) (ds : List DimSpec) (data data' : List Int → V) (index : Index)
    (value : List Nat → V) (hd : 0 < ds.length) (h : setItem v ds data index value = .ok data') :
    ∃ r, getItem v ds data' index = .ok r ∧ ∀ ks, Fits r.shape ks → r.get ks = value ks := by
  rw [setItem] at h
  rw [getItem, if_pos hd]
  cases he : arrayIndex v ds index with
  | error x => rw [he] at h; cases h
  | ok es =>
    rw [he] at h
    simp only [Except.bind, npSet, npGet] at h ⊢
    cases hp : picks (ds.map (·.shape)) es with
    | error x => rw [hp] at h; cases h
    | ok p =>
      rw [hp] at h
      cases h
      refine ⟨_, rfl, fun ks hk => ?_⟩
      have := (locate_iff p (picks_good _ _ _ hp) (place p ks) ks).mpr ⟨hk, rfl⟩
      simp only [this]

/-- A place of the array. -/
def InArray (ds : List DimSpec) (gs : List Int) : Prop := List.Forall₂ (fun d g => 0 ≤ g ∧ g < d.shape) ds gs

theorem clip_range {n s a : Int} (hn : 0 ≤ n) :
    (0 < s → 0 ≤ clip n s a ∧ clip n s a ≤ n) ∧ (s < 0 → -1 ≤ clip n s a ∧ clip n s a ≤ n - 1) := by
  unfold clip
  constructor
  · intro h
    have : ¬ s < 0 := by omega
    simp only [if_neg this]
    split <;> omega
  · intro h
    simp only [if_pos h]
    split <;> omega

theorem between {f s k c : Int} (h0 : 0 ≤ k) (hk : k < c) : (0 < s → f ≤ f + k * s) ∧ (s < 0 → f + k * s ≤ f) := by
  constructor
  · intro hs; have := Int.mul_nonneg h0 (Int.le_of_lt hs); omega
  · intro hs
    have := Int.mul_nonneg h0 (show 0 ≤ -s by omega)
    rw [Int.mul_neg] at this
    omega

theorem place_inside : ∀ (es : List Entry) (ds : List DimSpec), (∀ d ∈ ds, 0 ≤ d.shape) → ∀ (p : List Pick),
    picks (ds.map (·.shape)) es = .ok p → ∀ ks, Fits (shapeOf p) ks → InArray ds (place p ks)
  | [], ds, hd, p, h, ks, hk => by
    rw [picks] at h
    have h' : (ds.map (·.shape)).map (fun n => Pick.run 0 1 n.toNat) = p := by cases h; rfl
    rw [← h'] at hk ⊢
    clear h h'
    induction ds generalizing ks with
    | nil => exact .nil
    | cons d ds ih =>
      simp only [List.map_cons, shapeOf] at hk ⊢
      obtain ⟨k, ks', rfl, h1, h2⟩ := fits_cons.mp hk
      have := hd d List.mem_cons_self
      exact .cons (by omega) (ih (fun d h => hd d (List.mem_cons_of_mem _ h)) ks' h2)
  | .new :: es, ds, hd, p, h, ks, hk => by
    rw [picks] at h
    cases hp : picks (ds.map (·.shape)) es with
    | error x => rw [hp] at h; cases h
    | ok p' =>
      rw [hp] at h; cases h
      obtain ⟨k, ks', rfl, -, h2⟩ := fits_cons.mp hk
      exact place_inside es ds hd p' hp ks' h2
  | .int i :: es, [], hd, p, h, ks, hk => by rw [List.map_nil, picks] at h; cases h
  | .sl a b s :: es, [], hd, p, h, ks, hk => by rw [List.map_nil, picks] at h; cases h
  | .int i :: es, d :: ds, hd, p, h, ks, hk => by
    rw [List.map_cons, picks] at h
    split at h
    · cases h
    · rename_i j hj
      cases hp : picks (ds.map (·.shape)) es with
      | error x => rw [hp] at h; cases h
      | ok p' =>
        rw [hp] at h; cases h
        refine .cons ?_ (place_inside es ds (fun d h => hd d (List.mem_cons_of_mem _ h)) p' hp ks hk)
        unfold npInt at hj
        simp only at hj
        generalize (if i < 0 then d.shape + i else i) = m at hj
        by_cases hc : 0 ≤ m ∧ m < d.shape
        · rw [if_pos hc] at hj
          injection hj with hj
          rw [← hj]; exact hc
        · rw [if_neg hc] at hj
          cases hj
  | .sl a b st :: es, d :: ds, hd, p, h, ks, hk => by
    rw [List.map_cons, picks] at h
    split at h
    · cases h
    · rename_i q hq
      cases hp : picks (ds.map (·.shape)) es with
      | error x => rw [hp] at h; cases h
      | ok p' =>
        rw [hp] at h; cases h
        unfold pickSlice at hq
        simp only at hq
        split at hq
        · cases hq
        · rename_i hs
          cases hq
          obtain ⟨k, ks', rfl, h1, h2⟩ := fits_cons.mp hk
          refine .cons ?_ (place_inside es ds (fun d h => hd d (List.mem_cons_of_mem _ h)) p' hp ks' h2)
          have hn := hd d List.mem_cons_self
          have hb := between (f := firstOf d.shape (st.getD 1) a) (s := st.getD 1) (k := (k : Int)) (c := (k : Int) + 1)
            (by omega) (by omega)
          rcases (count_iff _ _ _ hs k).mp h1 with ⟨hs', hk'⟩ | ⟨hs', hk'⟩
          · have f0 : 0 ≤ firstOf d.shape (st.getD 1) a := by
              cases a with
              | none => simp only [firstOf]; rw [if_neg (show ¬ st.getD 1 < 0 by omega)]; exact Int.le_refl _
              | some a => exact ((clip_range hn).1 hs').1
            have l1 : lastOf d.shape (st.getD 1) b ≤ d.shape := by
              cases b with
              | none => simp only [lastOf]; rw [if_neg (show ¬ st.getD 1 < 0 by omega)]; exact Int.le_refl _
              | some b => exact ((clip_range hn).1 hs').2
            have := hb.1 hs'
            omega
          · have f0 : firstOf d.shape (st.getD 1) a ≤ d.shape - 1 := by
              cases a with
              | none => simp only [firstOf]; rw [if_pos hs']; exact Int.le_refl _
              | some a => exact ((clip_range hn).2 hs').2
            have l1 : -1 ≤ lastOf d.shape (st.getD 1) b := by
              cases b with
              | none => simp only [lastOf]; rw [if_pos hs']; exact Int.le_refl _
              | some b => exact ((clip_range hn).2 hs').1
            have := hb.2 hs'
            omega

/-- C102: no index reaches outside of the array: a write of any kind leaves every place that is not of the array alone. -/
theorem C102_safe (v : Option ViewKind) (ds : List DimSpec) (hs : ∀ d ∈ ds, 0 ≤ d.shape) (data data' : List Int → V)
    (index : Index) (value : List Nat → V) (h : setItem v ds data index value = .ok data') (gs : List Int)
    (hg : ¬ InArray ds gs) : data' gs = data gs := by
  rw [setItem] at h
  cases he : arrayIndex v ds index with
  | error x => rw [he] at h; cases h
  | ok es =>
    rw [he] at h
    simp only [Except.bind, npSet] at h
    cases hp : picks (ds.map (·.shape)) es with
    | error x => rw [hp] at h; cases h
    | ok p =>
      rw [hp] at h
      cases h
      simp only
      cases hc : locate p gs with
      | none => rfl
      | some ks =>
        obtain ⟨h1, h2⟩ := (locate_iff p (picks_good _ _ _ hp) gs ks).mp hc
        have := place_inside es ds hs p hp ks h1
        rw [h2] at this
        exact absurd this hg

/-- C102: more entries than dimensions are refused. -/
theorem C102_many (v : Option ViewKind) (ds : List DimSpec) (data : List Int → V) (l : List Entry) (value : List Nat → V)
    (h : ds.length < l.length) :
    getItem v ds data (.tuple l) = .error .indexError ∧ setItem v ds data (.tuple l) value = .error .indexError := by
  have e : arrayIndex v ds (.tuple l) = .error .indexError := by
    cases v with
    | none => rw [arrayIndex, computeIndex]; exact if_pos h
    | some k => rw [arrayIndex, boundaryIndex]; exact if_pos h
  refine ⟨?_, by rw [setItem, e]; rfl⟩
  rw [getItem]
  split
  · rw [e]; rfl
  · cases l with
    | nil => simp only [List.length_nil] at h; omega
    | cons a l => rfl

/-- C102: `sel` takes for each dimension the entry by its name, whatever the order of names, and all of the dimension
without one. -/
theorem C102_sel (v : Option ViewKind) (names : List String) (ds : List DimSpec) (data : List Int → V)
    (kwargs : List (String × Entry)) (hk : (kwargs.map (·.1)).Nodup) (es : List Entry)
    (h : List.Forall₂ (fun n e => (n, e) ∈ kwargs ∨ (n ∉ kwargs.map (·.1) ∧ e = .sl none none none)) names es) :
    sel v names ds data kwargs = getItem v ds data (.tuple es) := by
  have key : ∀ n e, ((n, e) ∈ kwargs ∨ (n ∉ kwargs.map (·.1) ∧ e = .sl none none none)) → named kwargs n = e := by
    intro n e he
    unfold named
    clear h
    induction kwargs with
    | nil =>
      rcases he with he | he
      · cases he
      · rw [he.2]; rfl
    | cons a l ih =>
      obtain ⟨m, x⟩ := a
      rw [List.map_cons, List.nodup_cons] at hk
      by_cases hm : m = n
      · subst hm
        simp only [List.find?_cons, beq_self_eq_true, Option.map_some, Option.getD_some]
        rcases he with he | he
        · rcases List.mem_cons.mp he with he | he
          · cases he; rfl
          · exact absurd (List.mem_map.mpr ⟨_, he, rfl⟩) hk.1
        · exact absurd (by simp) he.1
      · have hm' : (m == n) = false := by simpa using hm
        simp only [List.find?_cons, hm']
        refine ih hk.2 ?_
        rcases he with he | he
        · rcases List.mem_cons.mp he with he | he
          · cases he; exact absurd rfl hm
          · exact Or.inl he
        · refine Or.inr ⟨fun h' => he.1 (List.mem_cons_of_mem _ h'), he.2⟩
  have e : names.map (named kwargs) = es := by
    induction h with
    | nil => rfl
    | cons a _ ih => rw [List.map_cons, key _ _ a, ih]
  rw [sel, e]

theorem count_one (o e : Int) (h : 0 ≤ e) : countOf o (o + e) 1 = e.toNat := by
  unfold countOf
  rw [if_pos (by decide : (0 : Int) < 1)]
  split
  · rw [Int.ediv_one]; omega
  · omega

/-- C102: `field` is the compute domain, whole and nothing else. -/
theorem C102_field (ds : List DimSpec) (hd : 0 < ds.length) (data : List Int → V)
    (hw : ∀ d ∈ ds, 0 ≤ d.origin ∧ 0 ≤ d.extent ∧ d.origin + d.extent ≤ d.shape) :
    ∃ r, field ds data = .ok r ∧ r.shape = ds.map (·.extent.toNat) ∧
      ∀ ks, Fits r.shape ks → r.get ks = data (List.zipWith (fun (d : DimSpec) (k : Nat) => d.origin + (k : Int)) ds ks) := by
  have hf : fill (Index.one Entry.all).entries ds.length = List.replicate ds.length Entry.all := by
    cases ds with
    | nil => simp only [List.length_nil] at hd; omega
    | cons d ds => simp only [fill, Index.entries, List.length_cons, List.length_nil]; rfl
  have hk : ∀ d ∈ ds, Within none d Entry.all := by
    intro d h
    have := hw d h
    refine ⟨?_, ?_, ?_, ?_, Or.inl (by decide)⟩ <;> simp only [lower, upper, Option.map_none, Option.getD_none] <;> omega
  have hall : List.Forall₂ (Within none) ds (List.replicate ds.length Entry.all) := by
    clear hf hd hw
    induction ds with
    | nil => exact .nil
    | cons d ds ih => exact .cons (hk d List.mem_cons_self) (ih fun d h => hk d (List.mem_cons_of_mem _ h))
  obtain ⟨r, h1, h2, h3⟩ := C102_read none ds data (.one Entry.all) hd (by simp only [Index.entries, List.length_cons, List.length_nil]; omega)
    (by rw [hf]; exact hall)
  rw [hf] at h2 h3
  have key : ∀ (ds : List DimSpec), (∀ d ∈ ds, 0 ≤ d.extent) → ∀ ks gs,
      Means none ds (List.replicate ds.length Entry.all) ks gs ↔
        Fits (ds.map (·.extent.toNat)) ks ∧ gs = List.zipWith (fun (d : DimSpec) (k : Nat) => d.origin + (k : Int)) ds ks := by
    intro ds
    induction ds with
    | nil =>
      intro _ ks gs
      rw [List.map_nil, fits_nil]
      constructor
      · intro h; cases h; exact ⟨rfl, rfl⟩
      · rintro ⟨rfl, rfl⟩; exact .nil
    | cons d ds ih =>
      intro he ks gs
      have he' := he d List.mem_cons_self
      have ih := ih (fun d h => he d (List.mem_cons_of_mem _ h))
      rw [List.map_cons, fits_cons]
      constructor
      · intro h
        cases h with
        | up _ _ _ _ k h hs hk =>
          obtain ⟨x, y⟩ := (ih _ _).mp h
          simp only [lower, upper, Option.map_none, Option.getD_none] at hk ⊢
          refine ⟨⟨_, _, rfl, by omega, x⟩, ?_⟩
          rw [y, List.zipWith_cons_cons, Int.mul_one]
        | down _ _ _ _ k h hs hk => exact absurd hs (by decide)
      · rintro ⟨⟨k, ks', rfl, hk, x⟩, rfl⟩
        have := Means.up (v := none) d none none none k ((ih ks' _).mpr ⟨x, rfl⟩) (by decide)
          (by simp only [lower, upper, Option.map_none, Option.getD_none]; omega)
        simp only [lower, Option.map_none, Option.getD_none, Int.mul_one] at this
        exact this
  have he : ∀ d ∈ ds, 0 ≤ d.extent := fun d h => (hw d h).2.1
  have hfit : ∀ ks, Fits r.shape ks ↔ Fits (ds.map (·.extent.toNat)) ks := by
    intro ks
    rw [h2]
    constructor
    · rintro ⟨gs, h⟩; exact ((key ds he ks gs).mp h).1
    · intro h; exact ⟨_, (key ds he ks _).mpr ⟨h, rfl⟩⟩
  have hpick : r.shape = ds.map (·.extent.toNat) := by
    have := h1
    rw [getItem, if_pos hd, arrayIndex_eq none ds _ (by simp only [Index.entries, List.length_cons, List.length_nil]; omega), hf] at this
    have e : ∀ ds : List DimSpec, (∀ d ∈ ds, Within none d Entry.all) → (∀ d ∈ ds, 0 ≤ d.extent) → ∃ es p,
        shiftAll none ds (List.replicate ds.length Entry.all) = .ok es ∧ picks (ds.map (·.shape)) es = .ok p ∧
        shapeOf p = ds.map (·.extent.toNat) := by
      intro ds
      induction ds with
      | nil => intro _ _; exact ⟨[], [], rfl, rfl, rfl⟩
      | cons d ds ih =>
        intro hk he
        obtain ⟨es, p, a, b, c⟩ := ih (fun d h => hk d (List.mem_cons_of_mem _ h)) (fun d h => he d (List.mem_cons_of_mem _ h))
        have hd := hk d List.mem_cons_self
        have hx := he d List.mem_cons_self
        obtain ⟨-, q⟩ := pick_within none d none none none hd
        refine ⟨.sl (some (lower none d none)) (some (upper none d none)) none :: es,
          .run (lower none d none) 1 (countOf (lower none d none) (upper none d none) 1) :: p, ?_, ?_, ?_⟩
        · rw [List.length_cons, List.replicate_succ, shiftAll, show shifted none d Entry.all = _ from shifted_slice none d none none none hd, a]
          rfl
        · rw [List.map_cons, picks, q, b]; rfl
        · rw [shapeOf, c, List.map_cons]
          congr 1
          exact count_one d.origin d.extent hx
    obtain ⟨es, p, a, b, c⟩ := e ds hk he
    rw [a] at this
    simp only [Except.bind, npGet, b, Except.map] at this
    injection this with this
    rw [← this]
    exact c
  refine ⟨r, h1, hpick, fun ks h => ?_⟩
  exact h3 ks _ ((key ds he ks _).mpr ⟨(hfit ks).mp h, rfl⟩)

/-! ### What does not hold -/

/-- What was read: shape and elements. -/
def seen (r : Except Err (Arr Int)) (ks : List Nat) : Option (List Nat × Int) :=
  match r with
  | .ok a => some (a.shape, a.get ks)
  | .error _ => none

/-- A quantity of two axes with a halo of one point; its elements tell their places. -/
def sample2 : List DimSpec := [⟨.i, 1, 3, 5⟩, ⟨.k, 0, 4, 5⟩]
def told : List Int → Int
  | [i, j] => 10 * i + j
  | _ => -1

/-- Not so for a step backward without bounds: the compute domain is not reversed, there is nothing, for any domain. -/
theorem C102_reverse_violated (d : DimSpec) (h : 0 ≤ d.origin ∧ 0 < d.extent ∧ d.origin + d.extent < d.shape)
    (data : List Int → V) (s : Int) (hs : s < 0) :
    ∃ r, getItem none [d] data (.one (.sl none none (some s))) = .ok r ∧ ∀ ks, ¬ Fits r.shape ks := by
  obtain ⟨r, h1, h2, -⟩ := C102_read none [d] data (.one (.sl none none (some s))) Nat.one_pos (Nat.le_refl 1)
    (.cons ⟨by simp only [lower, Option.map_none, Option.getD_none]; omega,
      by simp only [lower, Option.map_none, Option.getD_none]; omega,
      by simp only [upper, Option.map_none, Option.getD_none]; omega,
      by simp only [upper, Option.map_none, Option.getD_none]; omega,
      Or.inr ⟨hs, by simp only [lower, Option.map_none, Option.getD_none]; omega,
        by simp only [upper, Option.map_none, Option.getD_none]; omega⟩⟩ .nil)
  refine ⟨r, h1, fun ks hk => ?_⟩
  obtain ⟨gs, hg⟩ := (h2 ks).mp hk
  cases hg with
  | up _ _ _ _ k _ hs' _ => simp only [Option.getD_some] at hs'; omega
  | down _ _ _ _ k _ _ hk' =>
    simp only [lower, upper, Option.map_none, Option.getD_none, Option.getD_some] at hk'
    have := (between (f := d.origin) (s := s) (k := (k : Int)) (c := k + 1) (by omega) (by omega)).2 hs
    omega

/-- Not so with a new axis: it takes the place of an axis of the quantity, so that `view[None, 0]` starts at the array's
begin in place of the domain's and the last axis shows what is outside of the domain; a view of a corner refuses it. -/
theorem C102_newaxis_violated :
    seen (getItem none sample2 told (.tuple [.new, .int 0])) [0, 0] = some ([1, 5], 0) ∧
    seen (getItem none sample2 told (.tuple [.int 0])) [0] = some ([4], 10) ∧
    seen (getItem (some .interior) sample2 told (.tuple [.new, .int 0])) [0, 0] = none := by
  refine ⟨by decide +kernel, by decide +kernel, by decide +kernel⟩

/-- Not so for a misspelt name: it is not refused but all of the domain is given. -/
theorem C102_typo_violated :
    seen (sel none ["x", "z"] sample2 told [("zz", .int 2)]) [2, 3] = some ([3, 4], 33) ∧
    seen (sel none ["x", "z"] sample2 told [("z", .int 2)]) [2] = some ([3], 32) := by
  refine ⟨by decide +kernel, by decide +kernel⟩

/-- Not so without dimensions: any integer is read, and what can be read by `[:]` cannot be written by it. -/
theorem C102_scalar_violated (v : Option ViewKind) (data : List Int → V) (value : List Nat → V) (i : Int) :
    (∃ r, getItem v [] data (.one (.int i)) = .ok r ∧ r.get [] = data []) ∧
    (∃ r, getItem v [] data (.one Entry.all) = .ok r ∧ r.get [] = data []) ∧
    setItem v [] data (.one Entry.all) value = .error .indexError := by
  refine ⟨⟨_, rfl, rfl⟩, ⟨_, rfl, rfl⟩, ?_⟩
  cases v <;> rfl

/-! ### Cases -/

/-- `C102_read`, `C102_write`: every second point of the domain forward, backward from the third to the halo, through a
corner. -/
example : List.Forall₂ (Within none) sample2 (fill (Index.tuple [.sl none none (some 2)]).entries sample2.length) :=
  .cons (by decide) (.cons (by decide) .nil)
example : seen (getItem none sample2 told (.one (.sl none none (some 2)))) [1, 3] = some ([2, 4], 33) := by decide +kernel
example : Means none sample2 [.sl none none (some 2), .int 3] [1] [3, 3] :=
  .up _ none none (some 2) 1 (.int _ 3 .nil) (by decide) (by decide)
example : Within (some .interior) ⟨.i, 1, 3, 5⟩ (.sl (some 2) (some (-4)) (some (-1))) := by decide
example : seen (getItem (some .interior) sample2 told (.one (.sl (some 2) (some (-4)) (some (-1))))) [2, 0] =
    some ([3, 4], 10) := by decide +kernel
/-- `C102_write_read`, `C102_safe`: a write with a new axis and a bound far off succeeds. -/
example : (setItem none sample2 told (.tuple [.new, .sl (some 1) (some 99) none]) (fun _ => 7)).isOk = true := by
  decide +kernel
/-- `C102_sel` -/
example : List.Forall₂ (fun n e => (n, e) ∈ [("z", Entry.int 2)] ∨
    (n ∉ [("z", Entry.int 2)].map (·.1) ∧ e = .sl none none none)) ["x", "z"] [.sl none none none, .int 2] :=
  .cons (by decide) (.cons (by decide) .nil)
/-- `C102_field` -/
example : (∀ d ∈ sample2, 0 ≤ d.origin ∧ 0 ≤ d.extent ∧ d.origin + d.extent ≤ d.shape) ∧
    seen (field sample2 told) [0, 0] = some ([3, 4], 10) := by
  refine ⟨by decide, by decide +kernel⟩

end NDSL.View
