import Verif.Model.GridStorage
import Verif.Props.StorageData
import Verif.Props.StateTransfer
import Verif.Props.Translate
/-
C133: the variables of a grid read from reference data lie at their points.
-/
namespace NDSL.GridStorage
open NDSL.Storage NDSL.Translate

variable {V : Type}

/-! ### Specification -/

/-- The grid of a rank with `nic` by `njc` cells, a halo of three and `npz` levels. -/
structure IsLocal (g : Grid) (nic njc npz : Nat) : Prop where
  i : g.is_ = 3 ∧ g.ie = nic + 2 ∧ g.isd = 0 ∧ g.ied = nic + 5
  j : g.js = 3 ∧ g.je = njc + 2 ∧ g.jsd = 0 ∧ g.jed = njc + 5
  k : g.npz = npz

/-- Where data of `p` by `q` points begins: data on the cells or corners of the domain after the halo, data with one more row of
cells on each side one before that, other data at the beginning. -/
def StartsAt (nic njc p q s : Nat) : Prop :=
  ((p = nic ∨ p = nic + 1) ∧ (q = njc ∨ q = njc + 1) ∧ s = 3) ∨
  (p = nic + 2 ∧ q = njc + 2 ∧ s = 2) ∨
  (¬ ((p = nic ∨ p = nic + 1) ∧ (q = njc ∨ q = njc + 1)) ∧ ¬ (p = nic + 2 ∧ q = njc + 2) ∧ s = 0)

/-- The names the program treats in a way of their own. -/
def ownWay : List String :=
  ["sin_sg", "cos_sg", "vlon", "vlat", "ee1", "ee2", "ew1", "ew2", "es1", "es2", "edge_w", "edge_e", "edge_s", "edge_n",
   "edge_vect_s", "edge_vect_n", "edge_vect_w", "edge_vect_e",
   "sin_sg1", "sin_sg2", "sin_sg3", "sin_sg4", "sin_sg5", "sin_sg6", "sin_sg7", "sin_sg8", "sin_sg9",
   "cos_sg1", "cos_sg2", "cos_sg3", "cos_sg4", "cos_sg5", "cos_sg6", "cos_sg7", "cos_sg8", "cos_sg9"]

/-! ### Loops -/

theorem names_sin : (List.range 9).map (componentName "sin_sg") =
    ["sin_sg1", "sin_sg2", "sin_sg3", "sin_sg4", "sin_sg5", "sin_sg6", "sin_sg7", "sin_sg8", "sin_sg9"] := by decide

theorem names_cos : (List.range 9).map (componentName "cos_sg") =
    ["cos_sg1", "cos_sg2", "cos_sg3", "cos_sg4", "cos_sg5", "cos_sg6", "cos_sg7", "cos_sg8", "cos_sg9"] := by decide

theorem update_get {f : Val V → Except Err (Val V)} {d d' : Data V} {key : String} (h : update f d key = .ok d') :
    (∀ k, k ≠ key → dictGet d' k = dictGet d k) ∧ (dictGet d key = none → dictGet d' key = none) ∧
    ∀ v, dictGet d key = some v → ∃ v', f v = .ok v' ∧ dictGet d' key = some v' := by
  unfold update at h
  split at h
  · rename_i h1
    injection h with h
    subst h
    exact ⟨fun _ _ => rfl, fun _ => h1, fun v hv => by rw [h1] at hv; cases hv⟩
  · rename_i v h1
    split at h
    · rename_i v' h2
      injection h with h
      subst h
      refine ⟨fun k hk => (by rw [dictGet_set, if_neg hk]), fun hn => (by rw [h1] at hn; cases hn), fun v1 hv => ?_⟩
      rw [h1] at hv
      injection hv with hv
      exact ⟨v', by rw [← hv]; exact h2, by rw [dictGet_set, if_pos rfl]⟩
    · cases h

theorem each_update {α : Type} (key : α → String) (F : α → Val V → Except Err (Val V)) (l : List α) (hl : (l.map key).Nodup)
    {d d' : Data V} (h : each (fun d x => update (F x) d (key x)) l d = .ok d') :
    (∀ k, k ∉ l.map key → dictGet d' k = dictGet d k) ∧
    ∀ x ∈ l, (dictGet d (key x) = none → dictGet d' (key x) = none) ∧
      ∀ v, dictGet d (key x) = some v → ∃ v', F x v = .ok v' ∧ dictGet d' (key x) = some v' := by
  induction l generalizing d with
  | nil =>
    unfold each at h
    injection h with h
    subst h
    exact ⟨fun _ _ => rfl, by simp⟩
  | cons y l ih =>
    unfold each at h
    simp only [List.map_cons, List.nodup_cons] at hl
    split at h
    · rename_i d1 h1
      obtain ⟨u1, u2, u3⟩ := update_get h1
      obtain ⟨i1, i2⟩ := ih hl.2 h
      refine ⟨fun k hk => ?_, fun x hx => ?_⟩
      · simp only [List.map_cons, List.mem_cons, not_or] at hk
        rw [i1 k hk.2, u1 k hk.1]
      · rcases List.mem_cons.1 hx with rfl | hx
        · rw [i1 _ hl.1]
          exact ⟨u2, u3⟩
        · have hne : key x ≠ key y := fun e => hl.1 (by rw [← e]; exact List.mem_map_of_mem hx)
          have := i2 x hx
          rw [u1 _ hne] at this
          exact this
    · cases h

theorem eachValue_get {f : Val V → Except Err (Val V)} {d d' : Data V} (h : eachValue f d = .ok d') (k : String) :
    (dictGet d k = none → dictGet d' k = none) ∧
    ∀ v, dictGet d k = some v → ∃ v', f v = .ok v' ∧ dictGet d' k = some v' := by
  induction d generalizing d' with
  | nil =>
    unfold eachValue at h
    injection h with h
    subst h
    exact ⟨fun _ => rfl, fun v hv => by cases hv⟩
  | cons e d ih =>
    obtain ⟨k0, v0⟩ := e
    unfold eachValue at h
    split at h
    · cases h
    · rename_i v1 h1
      split at h
      · cases h
      · rename_i d1 h2
        injection h with h
        subst h
        have ih := ih h2
        by_cases hk : k0 = k
        · subst hk
          simp only [dictGet, List.find?_cons, beq_self_eq_true, Option.map_some]
          refine ⟨by simp, fun v hv => ?_⟩
          injection hv with hv
          exact ⟨v1, by rw [← hv]; exact h1, rfl⟩
        · have hk' : (k0 == k) = false := by simpa using hk
          simp only [dictGet, List.find?_cons, hk'] at ih ⊢
          exact ih

theorem delete_get (d : Data V) (key k : String) : dictGet (delete d key) k = if k = key then none else dictGet d k := by
  unfold delete dictGet
  induction d with
  | nil => simp
  | cons e d ih =>
    obtain ⟨k0, v0⟩ := e
    by_cases h0 : k0 = key
    · subst h0
      simp only [List.filter_cons, bne_self_eq_false, Bool.false_eq_true, if_false, List.find?_cons]
      rw [ih]
      by_cases hk : k = k0
      · simp [hk]
      · have : (k0 == k) = false := by simpa using fun e => hk e.symm
        simp [hk, this]
    · have hb : (k0 != key) = true := by simpa using h0
      simp only [List.filter_cons, hb, if_true, List.find?_cons]
      by_cases hk : k0 = k
      · subst hk
        simp [h0]
      · have : (k0 == k) = false := by simpa using hk
        simp only [this]
        exact ih

theorem foldlM_comp (z : V) (cpu : Bool) (shape : List Nat) (key : String) (a : Nd V) (l : List Nat)
    (hl : (l.map (componentName key)).Nodup) {d d' : Data V}
    (h : l.foldlM (fun d s => do
      let c ← component a s
      let v ← stored cpu (makeStorageData z (squeeze c) { shape := some shape, origin := [0, 0, 0] })
      return dictSet d (componentName key s) v) d = .ok d') :
    (∀ k, k ∉ l.map (componentName key) → dictGet d' k = dictGet d k) ∧
    ∀ s ∈ l, ∃ c v, component a s = .ok c ∧
      stored cpu (makeStorageData z (squeeze c) { shape := some shape, origin := [0, 0, 0] }) = .ok v ∧
      dictGet d' (componentName key s) = some v := by
  induction l generalizing d with
  | nil =>
    simp only [List.foldlM_nil, pure, Except.pure, Except.ok.injEq] at h
    subst h
    exact ⟨fun _ _ => rfl, by simp⟩
  | cons s l ih =>
    rw [List.foldlM_cons] at h
    simp only [List.map_cons, List.nodup_cons] at hl
    cases hc : component a s with
    | error e => rw [hc] at h; simp [bind, Except.bind] at h
    | ok c =>
      cases hv : stored cpu (makeStorageData z (squeeze c) { shape := some shape, origin := [0, 0, 0] }) with
      | error e => rw [hc] at h; simp [bind, Except.bind, hv] at h
      | ok v =>
        rw [hc] at h
        simp only [bind, Except.bind, hv, pure, Except.pure] at h
        obtain ⟨i1, i2⟩ := ih hl.2 h
        refine ⟨fun k hk => ?_, fun t ht => ?_⟩
        · simp only [List.map_cons, List.mem_cons, not_or] at hk
          rw [i1 k hk.2, dictGet_set, if_neg hk.1]
        · rcases List.mem_cons.1 ht with rfl | ht
          · exact ⟨c, v, hc, hv, by rw [i1 _ hl.1, dictGet_set, if_pos rfl]⟩
          · exact i2 t ht

theorem split_get (z : V) (cpu : Bool) (shape : List Nat) {d d' : Data V} {key : String}
    (hn : ((List.range 9).map (componentName key)).Nodup) (hself : key ∉ (List.range 9).map (componentName key))
    (h : splitComposite z cpu shape d key = .ok d') :
    (∀ k, k ≠ key → k ∉ (List.range 9).map (componentName key) → dictGet d' k = dictGet d k) ∧
    ∀ a b, dictGet d key = some (.array a b) → dictGet d' key = none ∧ ∀ s < 9, ∃ c v, component a s = .ok c ∧
      stored cpu (makeStorageData z (squeeze c) { shape := some shape, origin := [0, 0, 0] }) = .ok v ∧
      dictGet d' (componentName key s) = some v := by
  unfold splitComposite at h
  split at h
  · rename_i h1
    injection h with h
    subst h
    exact ⟨fun _ _ _ => rfl, fun a b hv => by rw [h1] at hv; cases hv⟩
  · cases h
  · rename_i a b h1
    split at h
    · rename_i d1 h2
      injection h with h
      subst h
      obtain ⟨i1, i2⟩ := foldlM_comp z cpu shape key a (List.range 9) hn h2
      refine ⟨fun k hk hk2 => by rw [delete_get, if_neg hk, i1 k hk2], fun a' b' hv => ?_⟩
      rw [h1] at hv
      simp only [Option.some.injEq, Val.array.injEq] at hv
      rw [← hv.1]
      refine ⟨by rw [delete_get, if_pos rfl], fun s hs => ?_⟩
      obtain ⟨c, v, g1, g2, g3⟩ := i2 s (List.mem_range.2 hs)
      refine ⟨c, v, g1, g2, ?_⟩
      rw [delete_get, if_neg (fun e => hself (List.mem_map.2 ⟨s, List.mem_range.2 hs, e⟩))]
      exact g3
    · cases h

/-- What the loops before the last do to each name. -/
theorem special_get (z : V) (cpu : Bool) (shape : List Nat) {d d' : Data V} (h : special z cpu shape d = .ok d') :
    (∀ k, k ∉ ownWay → dictGet d' k = dictGet d k) ∧
    (∀ key ∈ compositeVars, ∀ a b, dictGet d key = some (.array a b) → dictGet d' key = none ∧
      ∀ s < 9, ∃ c v, component a s = .ok c ∧
        stored cpu (makeStorageData z (squeeze c) { shape := some shape, origin := [0, 0, 0] }) = .ok v ∧
        dictGet d' (componentName key s) = some v) ∧
    (∀ key ∈ vVars, ∀ v, dictGet d key = some v → ∃ v', vvar z cpu shape v = .ok v' ∧ dictGet d' key = some v') ∧
    (∀ key ∈ eeVars, ∀ v, dictGet d key = some v → ∃ v', unitVector z cpu shape v = .ok v' ∧ dictGet d' key = some v') ∧
    (∀ x ∈ edgeAxis, ∀ v, dictGet d x.1 = some v → ∃ v', edge z cpu shape x.2 v = .ok v' ∧ dictGet d' x.1 = some v') ∧
    (∀ x ∈ edgeVectAxis, ∀ v, dictGet d x.1 = some v →
      ∃ v', edgeVect z cpu shape x.2 v = .ok v' ∧ dictGet d' x.1 = some v') := by
  unfold special at h
  split at h
  · cases h
  rename_i d1 h1
  split at h
  · cases h
  rename_i d2 h2
  split at h
  · cases h
  rename_i d3 h3
  split at h
  · cases h
  rename_i d4 h4
  obtain ⟨b1, b2⟩ := each_update id (fun _ => vvar z cpu shape) vVars (by decide) h2
  obtain ⟨c1, c2⟩ := each_update id (fun _ => unitVector z cpu shape) eeVars (by decide) h3
  obtain ⟨e1, e2⟩ := each_update (fun x : String × Nat => x.1) (fun x => edge z cpu shape x.2) edgeAxis (by decide) h4
  obtain ⟨f1, f2⟩ := each_update (fun x : String × Nat => x.1) (fun x => edgeVect z cpu shape x.2) edgeVectAxis (by decide) h
  simp only [compositeVars, each] at h1
  split at h1
  on_goal 2 => cases h1
  rename_i d0 h0
  split at h1
  on_goal 2 => cases h1
  rename_i d0' h0'
  injection h1 with h1
  subst h1
  have ns := names_sin
  have nc := names_cos
  obtain ⟨s1, s2⟩ := split_get z cpu shape (by rw [ns]; decide) (by rw [ns]; decide) h0
  obtain ⟨t1, t2⟩ := split_get z cpu shape (by rw [nc]; decide) (by rw [nc]; decide) h0'
  rw [ns] at s1
  rw [nc] at t1
  have chain : ∀ k, k ∉ vVars → k ∉ eeVars → k ∉ edgeAxis.map (·.1) → k ∉ edgeVectAxis.map (·.1) →
      dictGet d' k = dictGet d0' k := by
    intro k x1 x2 x3 x4
    rw [f1 k x4, e1 k x3, c1 k (by simpa using x2), b1 k (by simpa using x1)]
  refine ⟨fun k hk => ?_, fun key hkey a b hv => ?_, fun key hkey v hv => ?_, fun key hkey v hv => ?_, fun x hx v hv => ?_,
    fun x hx v hv => ?_⟩
  · simp only [ownWay, List.mem_cons, List.not_mem_nil, or_false, not_or] at hk
    rw [chain k (by simp [vVars, hk]) (by simp [eeVars, hk]) (by simp [edgeAxis, hk]) (by simp [edgeVectAxis, hk]),
      t1 k hk.2.1 (by simp [hk]), s1 k hk.1 (by simp [hk])]
  · simp only [compositeVars, List.mem_cons, List.not_mem_nil, or_false] at hkey
    rcases hkey with rfl | rfl
    · obtain ⟨x1, x2⟩ := s2 a b hv
      refine ⟨by rw [chain _ (by decide) (by decide) (by decide) (by decide), t1 _ (by decide) (by decide)]; exact x1, fun s hs => ?_⟩
      obtain ⟨c, v, y1, y2, y3⟩ := x2 s hs
      refine ⟨c, v, y1, y2, ?_⟩
      have hall : ∀ s < 9, componentName "sin_sg" s ∉ vVars ∧ componentName "sin_sg" s ∉ eeVars ∧
        componentName "sin_sg" s ∉ edgeAxis.map (·.1) ∧ componentName "sin_sg" s ∉ edgeVectAxis.map (·.1) ∧
        componentName "sin_sg" s ≠ "cos_sg" ∧ componentName "sin_sg" s ∉
          ["cos_sg1", "cos_sg2", "cos_sg3", "cos_sg4", "cos_sg5", "cos_sg6", "cos_sg7", "cos_sg8", "cos_sg9"] := by decide
      obtain ⟨w1, w2, w3, w4, w5, w6⟩ := hall s hs
      rw [chain _ w1 w2 w3 w4, t1 _ w5 w6]
      exact y3
    · obtain ⟨x1, x2⟩ := t2 a b (by rw [s1 _ (by decide) (by decide)]; exact hv)
      refine ⟨by rw [chain _ (by decide) (by decide) (by decide) (by decide)]; exact x1, fun s hs => ?_⟩
      obtain ⟨c, v, y1, y2, y3⟩ := x2 s hs
      refine ⟨c, v, y1, y2, ?_⟩
      have hall : ∀ s < 9, componentName "cos_sg" s ∉ vVars ∧ componentName "cos_sg" s ∉ eeVars ∧
        componentName "cos_sg" s ∉ edgeAxis.map (·.1) ∧ componentName "cos_sg" s ∉ edgeVectAxis.map (·.1) := by decide
      obtain ⟨w1, w2, w3, w4⟩ := hall s hs
      rw [chain _ w1 w2 w3 w4]
      exact y3
  · have hall : ∀ k ∈ vVars, k ∉ eeVars ∧ k ∉ edgeAxis.map (·.1) ∧ k ∉ edgeVectAxis.map (·.1) ∧ k ≠ "cos_sg" ∧ k ≠ "sin_sg" ∧
      k ∉ ["cos_sg1", "cos_sg2", "cos_sg3", "cos_sg4", "cos_sg5", "cos_sg6", "cos_sg7", "cos_sg8", "cos_sg9"] ∧
      k ∉ ["sin_sg1", "sin_sg2", "sin_sg3", "sin_sg4", "sin_sg5", "sin_sg6", "sin_sg7", "sin_sg8", "sin_sg9"] := by decide
    obtain ⟨w1, w2, w3, w4, w5, w6, w7⟩ := hall key hkey
    obtain ⟨v', g1, g2⟩ := (b2 key hkey).2 v (by rw [id, t1 _ w4 w6, s1 _ w5 w7]; exact hv)
    exact ⟨v', g1, by rw [f1 _ w3, e1 _ w2, c1 _ (by simpa using w1)]; exact g2⟩
  · have hall : ∀ k ∈ eeVars, k ∉ vVars ∧ k ∉ edgeAxis.map (·.1) ∧ k ∉ edgeVectAxis.map (·.1) ∧ k ≠ "cos_sg" ∧ k ≠ "sin_sg" ∧
      k ∉ ["cos_sg1", "cos_sg2", "cos_sg3", "cos_sg4", "cos_sg5", "cos_sg6", "cos_sg7", "cos_sg8", "cos_sg9"] ∧
      k ∉ ["sin_sg1", "sin_sg2", "sin_sg3", "sin_sg4", "sin_sg5", "sin_sg6", "sin_sg7", "sin_sg8", "sin_sg9"] := by decide
    obtain ⟨w1, w2, w3, w4, w5, w6, w7⟩ := hall key hkey
    obtain ⟨v', g1, g2⟩ := (c2 key hkey).2 v (by rw [id, b1 _ (by simpa using w1), t1 _ w4 w6, s1 _ w5 w7]; exact hv)
    exact ⟨v', g1, by rw [f1 _ w3, e1 _ w2]; exact g2⟩
  · have hall : ∀ x ∈ edgeAxis, x.1 ∉ vVars ∧ x.1 ∉ eeVars ∧ x.1 ∉ edgeVectAxis.map (·.1) ∧ x.1 ≠ "cos_sg" ∧ x.1 ≠ "sin_sg" ∧
      x.1 ∉ ["cos_sg1", "cos_sg2", "cos_sg3", "cos_sg4", "cos_sg5", "cos_sg6", "cos_sg7", "cos_sg8", "cos_sg9"] ∧
      x.1 ∉ ["sin_sg1", "sin_sg2", "sin_sg3", "sin_sg4", "sin_sg5", "sin_sg6", "sin_sg7", "sin_sg8", "sin_sg9"] := by decide
    obtain ⟨w1, w2, w3, w4, w5, w6, w7⟩ := hall x hx
    obtain ⟨v', g1, g2⟩ := (e2 x hx).2 v (by
      rw [c1 _ (by simpa using w2), b1 _ (by simpa using w1), t1 _ w4 w6, s1 _ w5 w7]; exact hv)
    exact ⟨v', g1, by rw [f1 _ w3]; exact g2⟩
  · have hall : ∀ x ∈ edgeVectAxis, x.1 ∉ vVars ∧ x.1 ∉ eeVars ∧ x.1 ∉ edgeAxis.map (·.1) ∧ x.1 ≠ "cos_sg" ∧ x.1 ≠ "sin_sg" ∧
      x.1 ∉ ["cos_sg1", "cos_sg2", "cos_sg3", "cos_sg4", "cos_sg5", "cos_sg6", "cos_sg7", "cos_sg8", "cos_sg9"] ∧
      x.1 ∉ ["sin_sg1", "sin_sg2", "sin_sg3", "sin_sg4", "sin_sg5", "sin_sg6", "sin_sg7", "sin_sg8", "sin_sg9"] := by decide
    obtain ⟨w1, w2, w3, w4, w5, w6, w7⟩ := hall x hx
    exact (f2 x hx).2 v (by
      rw [e1 _ w3, c1 _ (by simpa using w2), b1 _ (by simpa using w1), t1 _ w4 w6, s1 _ w5 w7]; exact hv)

/-! ### Shapes -/

theorem fullShape_eq {g : Grid} {nic njc npz : Nat} (hg : IsLocal g nic njc npz) :
    fullShape g = [nic + 7, njc + 7, npz + 1] := by
  obtain ⟨⟨a1, a2, a3, a4⟩, ⟨b1, b2, b3, b4⟩, c⟩ := hg
  simp only [fullShape, Grid.nid, Grid.njd, a3, a4, b3, b4, c, List.cons.injEq, and_true]
  omega

theorem starts_eq {g : Grid} {nic njc npz p q s : Nat} (hg : IsLocal g nic njc npz) (hs : StartsAt nic njc p q s) (r : List Nat) :
    g.starts (p :: q :: r) = ((s : Int), (s : Int)) := by
  obtain ⟨⟨a1, a2, a3, a4⟩, ⟨b1, b2, b3, b4⟩, c⟩ := hg
  simp only [Grid.starts, Grid.nic, Grid.njc, a1, a2, b1, b2, List.take_succ_cons, List.take_zero, List.map_cons, List.map_nil,
    List.cons.injEq, and_true]
  unfold StartsAt at hs
  split
  · simp only [Prod.mk.injEq]; omega
  · split
    · simp only [Prod.mk.injEq]; omega
    · simp only [Prod.mk.injEq]; omega

theorem starts_line (g : Grid) (n : Nat) : g.starts [n] = (0, 0) := by
  simp [Grid.starts]

theorem plain_eq (z : V) (cpu : Bool) (g : Grid) (shape : List Nat) (a : Nd V) (ha : a.shape ≠ []) :
    plain z cpu g shape (.array a true) = stored cpu (makeStorageData z a
      { shape := some shape, origin := [(g.starts a.shape).1.toNat, (g.starts a.shape).2.toNat, 0],
        start := [(g.starts a.shape).1.toNat, (g.starts a.shape).2.toNat, 0] }) := by
  simp only [plain, if_neg ha]

/-- The last loop on a plane. -/
theorem plain_plane (z : V) (cpu : Bool) {g : Grid} {nic njc npz p q s : Nat} (hg : IsLocal g nic njc npz) (a : Nd V)
    (ha : a.shape = [p, q]) (hs : StartsAt nic njc p q s) (hp : s + p ≤ nic + 7) (hq : s + q ≤ njc + 7) :
    ∃ r, plain z cpu g (fullShape g) (.array a true) = .ok (.array r cpu) ∧ r.shape = [nic + 7, njc + 7] ∧
      ∀ i j, i < nic + 7 → j < njc + 7 → r.get [i, j] = placed z a [s, s] [i, j] := by
  obtain ⟨m, h1, h2, h3, -⟩ := C98_plane z a
    { shape := some [nic + 7, njc + 7, npz + 1], origin := [s, s, 0], start := [s, s, 0] } p q (nic + 7) (njc + 7) (npz + 1)
    s s 0 s s 0 ha ⟨rfl, rfl, rfl, rfl, rfl⟩ rfl rfl rfl hp hq
  refine ⟨m.array, ?_, h2, h3⟩
  rw [plain_eq _ _ _ _ _ (by simp [ha])]
  simp only [ha, starts_eq hg hs, Int.toNat_natCast, fullShape_eq hg, h1, stored]

/-- The last loop on an array with levels. -/
theorem plain_full (z : V) (cpu : Bool) {g : Grid} {nic njc npz p q r0 s : Nat} (hg : IsLocal g nic njc npz) (a : Nd V)
    (ha : a.shape = [p, q, r0]) (hs : StartsAt nic njc p q s) (hp : s + p ≤ nic + 7) (hq : s + q ≤ njc + 7) (hr : r0 ≤ npz + 1) :
    ∃ r, plain z cpu g (fullShape g) (.array a true) = .ok (.array r cpu) ∧ r.shape = [nic + 7, njc + 7, npz + 1] ∧
      ∀ i j k, i < nic + 7 → j < njc + 7 → k < npz + 1 → r.get [i, j, k] = placed z a [s, s, 0] [i, j, k] := by
  obtain ⟨m, h1, h2, h3, -⟩ := C98_full z a
    { shape := some [nic + 7, njc + 7, npz + 1], origin := [s, s, 0], start := [s, s, 0] } [nic + 7, njc + 7, npz + 1] rfl rfl
    (by simp [ha]) (fun _ => rfl) (by simp [ha]) rfl (.inl (by simp [ha])) 0
    (by rw [ha]; exact ⟨hp, hq, by omega, trivial⟩) (by simp [ha])
  refine ⟨m.array, ?_, h2, fun i j k hi hj hk => h3 _ ⟨hi, hj, hk, trivial⟩⟩
  rw [plain_eq _ _ _ _ _ (by simp [ha])]
  simp only [ha, starts_eq hg hs, Int.toNat_natCast, fullShape_eq hg, h1, stored]

/-- The last loop on a line that is not longer than the levels, and on one that is. -/
theorem plain_line (z : V) (cpu : Bool) {g : Grid} {nic njc npz n : Nat} (hg : IsLocal g nic njc npz) (a : Nd V)
    (ha : a.shape = [n]) :
    (n ≤ npz + 1 → ∃ r, plain z cpu g (fullShape g) (.array a true) = .ok (.array r cpu) ∧ r.shape = [npz + 1] ∧
      ∀ k, k < npz + 1 → r.get [k] = placed z a [0] [k]) ∧
    (npz + 1 < n → 1 < n → plain z cpu g (fullShape g) (.array a true) = .error .valueError) := by
  constructor
  · intro hn
    obtain ⟨m, h1, h2, h3, -⟩ := (C98_line z a
      { shape := some [nic + 7, njc + 7, npz + 1], origin := [0, 0, 0], start := [0, 0, 0] } n (nic + 7) (njc + 7) (npz + 1)
      0 0 0 0 0 0 ha ⟨rfl, rfl, rfl, rfl, rfl⟩ rfl rfl).1 rfl (by omega)
    refine ⟨m.array, ?_, h2, h3⟩
    rw [plain_eq _ _ _ _ _ (by simp [ha])]
    simp only [ha, starts_line, Int.toNat_zero, fullShape_eq hg, h1, stored]
  · intro hn h1
    rw [plain_eq _ _ _ _ _ (by simp [ha])]
    have hc : (n == min n (npz + 1) || n == 1) = false := by simp; omega
    simp only [ha, starts_line, Int.toNat_zero, fullShape_eq hg, makeStorageData, maskAndShape, defaultMask, dataAny, data1,
      bind, Except.bind, pure, Except.pure, hasDummy, fromOpt, Option.getD_some, List.length_cons, List.length_nil]
    simp [assign, zeros, regions, fits, stored, ha]
    rw [if_neg (by omega)]

/-! ### C133 -/

theorem made {z : V} {cpu : Bool} {g : Grid} {d d' : Data V} (h : makeGridStorage z cpu g d = .ok d') :
    ∃ d1, special z cpu (fullShape g) d = .ok d1 ∧ ∀ k v, dictGet d1 k = some v →
      ∃ v', plain z cpu g (fullShape g) v = .ok v' ∧ dictGet d' k = some v' := by
  unfold makeGridStorage at h
  split at h
  · cases h
  · rename_i d1 h1
    exact ⟨d1, h1, fun k => (eachValue_get h k).2⟩

/-- C133: a variable of one level that has no way of its own is put at the place its size says, in an array over the whole domain
with halo. -/
theorem C133_plane {z : V} {cpu : Bool} {g : Grid} {nic njc npz p q s : Nat} {d d' : Data V}
    (h : makeGridStorage z cpu g d = .ok d') (hg : IsLocal g nic njc npz) {k : String} (hk : k ∉ ownWay) {a : Nd V}
    (hv : dictGet d k = some (.array a true)) (ha : a.shape = [p, q]) (hs : StartsAt nic njc p q s) (hp : s + p ≤ nic + 7)
    (hq : s + q ≤ njc + 7) :
    ∃ r, dictGet d' k = some (.array r cpu) ∧ r.shape = [nic + 7, njc + 7] ∧
      ∀ i j, i < nic + 7 → j < njc + 7 →
        r.get [i, j] = if s ≤ i ∧ i < s + p ∧ s ≤ j ∧ j < s + q then a.get [i - s, j - s] else z := by
  obtain ⟨d1, h1, h2⟩ := made h
  obtain ⟨v', h3, h4⟩ := h2 k _ (by rw [(special_get z cpu _ h1).1 k hk]; exact hv)
  obtain ⟨r, h5, h6, h7⟩ := plain_plane z cpu hg a ha hs hp hq
  rw [h5] at h3
  injection h3 with h3
  refine ⟨r, by rw [h4, h3], h6, fun i j hi hj => ?_⟩
  rw [h7 i j hi hj]
  simp only [placed, ha, inBox, List.zipWith_cons_cons, List.zipWith_nil_left, Bool.and_true, Bool.and_eq_true, decide_eq_true_eq,
    and_assoc]

/-- C133: so is a variable with levels. -/
theorem C133_levels {z : V} {cpu : Bool} {g : Grid} {nic njc npz p q n s : Nat} {d d' : Data V}
    (h : makeGridStorage z cpu g d = .ok d') (hg : IsLocal g nic njc npz) {k : String} (hk : k ∉ ownWay) {a : Nd V}
    (hv : dictGet d k = some (.array a true)) (ha : a.shape = [p, q, n]) (hs : StartsAt nic njc p q s) (hp : s + p ≤ nic + 7)
    (hq : s + q ≤ njc + 7) (hn : n ≤ npz + 1) :
    ∃ r, dictGet d' k = some (.array r cpu) ∧ r.shape = [nic + 7, njc + 7, npz + 1] ∧
      ∀ i j l, i < nic + 7 → j < njc + 7 → l < npz + 1 →
        r.get [i, j, l] = if s ≤ i ∧ i < s + p ∧ s ≤ j ∧ j < s + q ∧ l < n then a.get [i - s, j - s, l] else z := by
  obtain ⟨d1, h1, h2⟩ := made h
  obtain ⟨v', h3, h4⟩ := h2 k _ (by rw [(special_get z cpu _ h1).1 k hk]; exact hv)
  obtain ⟨r, h5, h6, h7⟩ := plain_full z cpu hg a ha hs hp hq hn
  rw [h5] at h3
  injection h3 with h3
  refine ⟨r, by rw [h4, h3], h6, fun i j l hi hj hl => ?_⟩
  rw [h7 i j l hi hj hl]
  simp only [placed, ha, inBox, List.zipWith_cons_cons, List.zipWith_nil_left, Bool.and_true, Bool.and_eq_true, decide_eq_true_eq,
    and_assoc, Nat.zero_le, true_and, Nat.zero_add, Nat.sub_zero]

/-- C133: what is not a NumPy array, and has no way of its own, is left as it is; so is a number in an array. -/
theorem C133_left {z : V} {cpu : Bool} {g : Grid} {d d' : Data V} (h : makeGridStorage z cpu g d = .ok d') {k : String}
    (hk : k ∉ ownWay) {v : Val V} (hv : dictGet d k = some v)
    (hv' : v = .other ∨ (∃ a, v = .array a false) ∨ ∃ a, v = .array a true ∧ a.shape = []) : dictGet d' k = some v := by
  obtain ⟨d1, h1, h2⟩ := made h
  obtain ⟨v', h3, h4⟩ := h2 k _ (by rw [(special_get z cpu _ h1).1 k hk]; exact hv)
  rcases hv' with rfl | ⟨a, rfl⟩ | ⟨a, rfl, ha⟩
  · simp only [plain, Except.ok.injEq] at h3
    rw [h4, h3]
  · simp only [plain, Except.ok.injEq] at h3
    rw [h4, h3]
  · simp only [plain, if_pos ha, Except.ok.injEq] at h3
    rw [h4, h3]

/-- The last loop leaves an array over the whole domain as it is. -/
theorem plain_whole (z : V) (cpu : Bool) {g : Grid} {nic njc npz : Nat} (hg : IsLocal g nic njc npz) (a : Nd V)
    (ha : a.shape = [nic + 7, njc + 7]) :
    ∃ r, plain z cpu g (fullShape g) (.array a cpu) = .ok (.array r cpu) ∧ r.shape = [nic + 7, njc + 7] ∧
      ∀ i j, i < nic + 7 → j < njc + 7 → r.get [i, j] = a.get [i, j] := by
  cases cpu with
  | false => exact ⟨a, rfl, ha, fun _ _ _ _ => rfl⟩
  | true =>
    obtain ⟨r, h1, h2, h3⟩ := plain_plane z true hg a ha (s := 0) (by unfold StartsAt; omega) (by omega) (by omega)
    refine ⟨r, h1, h2, fun i j hi hj => ?_⟩
    rw [h3 i j hi hj]
    simp [placed, ha, inBox, hi, hj]

/-- C133: each of the nine components of `sin_sg` and `cos_sg` is stored under its own name, counted from 1, and the variable they
come from is gone. -/
theorem C133_components {z : V} {cpu : Bool} {g : Grid} {nic njc npz p q n : Nat} {d d' : Data V}
    (h : makeGridStorage z cpu g d = .ok d') (hg : IsLocal g nic njc npz) {key : String} (hk : key = "sin_sg" ∨ key = "cos_sg")
    {a : Nd V} {b : Bool} (hv : dictGet d key = some (.array a b)) (ha : a.shape = [p, q, n]) (hp1 : p ≠ 1) (hq1 : q ≠ 1)
    (hp : p ≤ nic + 7) (hq : q ≤ njc + 7) :
    ∀ s < 9, ∃ r, dictGet d' (key ++ toString (s + 1)) = some (.array r cpu) ∧ r.shape = [nic + 7, njc + 7] ∧
      ∀ i j, i < nic + 7 → j < njc + 7 → r.get [i, j] = if i < p ∧ j < q then a.get [i, j, s] else z := by
  intro s hs
  obtain ⟨d1, h1, h2⟩ := made h
  obtain ⟨c, v, h3, h4, h5⟩ := ((special_get z cpu _ h1).2.1 key (by simpa [compositeVars] using hk) a b hv).2 s hs
  unfold component at h3
  simp only [ha] at h3
  split at h3
  on_goal 2 => cases h3
  injection h3 with h3
  have hsq : (squeeze c).shape = [p, q] := by rw [← h3]; simp [squeeze, hp1, hq1]
  have hsg : ∀ i j, (squeeze c).get [i, j] = a.get [i, j, s] := by
    intro i j
    rw [← h3]
    simp [squeeze, hp1, hq1]
  obtain ⟨m, m1, m2, m3, -⟩ := C98_plane z (squeeze c)
    { shape := some [nic + 7, njc + 7, npz + 1], origin := [0, 0, 0] } p q (nic + 7) (njc + 7) (npz + 1)
    0 0 0 0 0 0 hsq ⟨rfl, rfl, rfl, rfl, rfl⟩ rfl rfl rfl (by omega) (by omega)
  rw [fullShape_eq hg, m1] at h4
  simp only [stored, Except.ok.injEq] at h4
  subst h4
  obtain ⟨v', h6, h7⟩ := h2 _ _ h5
  obtain ⟨r, r1, r2, r3⟩ := plain_whole z cpu hg m.array m2
  rw [r1] at h6
  injection h6 with h6
  refine ⟨r, by rw [← h6] at h7; exact h7, r2, fun i j hi hj => ?_⟩
  rw [r3 i j hi hj, m3 i j hi hj]
  simp [placed, hsq, inBox, hsg]

/-- What the last loop does to an array of three directions. -/
theorem plain_directions (z : V) (cpu : Bool) {g : Grid} {nic njc npz : Nat} (hg : IsLocal g nic njc npz) (a : Nd V)
    (ha : a.shape = [nic + 7, njc + 7, 3]) (hz : 3 ≤ npz + 1) :
    ∃ r, plain z cpu g (fullShape g) (.array a cpu) = .ok (.array r cpu) ∧
      r.shape = [nic + 7, njc + 7, if cpu then npz + 1 else 3] ∧
      ∀ i j l, i < nic + 7 → j < njc + 7 → l < 3 → r.get [i, j, l] = a.get [i, j, l] := by
  cases cpu with
  | false => exact ⟨a, rfl, ha, fun _ _ _ _ _ _ => rfl⟩
  | true =>
    obtain ⟨r, h1, h2, h3⟩ := plain_full z true hg a ha (s := 0) (by unfold StartsAt; omega) (by omega) (by omega) hz
    refine ⟨r, h1, h2, fun i j l hi hj hl => ?_⟩
    rw [h3 i j l hi hj (by omega)]
    simp [placed, ha, inBox, hi, hj, hl]

/-- C133: the first index of a field of unit vectors, its direction, becomes the last. -/
theorem C133_unit_vectors {z : V} {cpu : Bool} {g : Grid} {nic njc npz p q : Nat} {d d' : Data V}
    (h : makeGridStorage z cpu g d = .ok d') (hg : IsLocal g nic njc npz) (hz : 3 ≤ npz + 1) {key : String}
    (hk : key ∈ ["ee1", "ee2", "ew1", "ew2", "es1", "es2"])
    {a : Nd V} {b : Bool} (hv : dictGet d key = some (.array a b)) (ha : a.shape = [3, p, q]) (hp : p ≤ nic + 7)
    (hq : q ≤ njc + 7) :
    ∃ r, dictGet d' key = some (.array r cpu) ∧ r.shape = [nic + 7, njc + 7, if cpu then npz + 1 else 3] ∧
      ∀ i j l, i < nic + 7 → j < njc + 7 → l < 3 → r.get [i, j, l] = if i < p ∧ j < q then a.get [l, i, j] else z := by
  obtain ⟨d1, h1, h2⟩ := made h
  obtain ⟨v, h3, h4⟩ := (special_get z cpu _ h1).2.2.2.1 key hk _ hv
  obtain ⟨m, m1, m2, m3, -⟩ := C98_full z (⟨[p, q, 3], fun idx => a.get (idx.getD 2 0 :: idx.take 2)⟩ : Nd V)
    { shape := some [nic + 7, njc + 7, 3], origin := [0, 0, 0] } [nic + 7, njc + 7, 3] rfl rfl (by simp) (fun _ => rfl) rfl rfl
    (.inl rfl) 0 ⟨by omega, by omega, by omega, trivial⟩ (by simp)
  simp only [unitVector, fullShape_eq hg, ha, m1, stored, Except.ok.injEq] at h3
  subst h3
  obtain ⟨v', h6, h7⟩ := h2 _ _ h4
  obtain ⟨r, r1, r2, r3⟩ := plain_directions z cpu hg m.array m2 hz
  rw [r1] at h6
  injection h6 with h6
  refine ⟨r, by rw [← h6] at h7; exact h7, r2, fun i j l hi hj hl => ?_⟩
  rw [r3 i j l hi hj hl, m3 [i, j, l] ⟨hi, hj, hl, trivial⟩]
  simp [placed, inBox, hl]

/-- C133: the directions of `vlon` and `vlat` are stored one point from the beginning. -/
theorem C133_directions {z : V} {cpu : Bool} {g : Grid} {nic njc npz p q : Nat} {d d' : Data V}
    (h : makeGridStorage z cpu g d = .ok d') (hg : IsLocal g nic njc npz) (hz : 3 ≤ npz + 1) {key : String}
    (hk : key = "vlon" ∨ key = "vlat") {a : Nd V} {b : Bool} (hv : dictGet d key = some (.array a b)) (ha : a.shape = [p, q, 3])
    (hp : 1 + p ≤ nic + 7) (hq : 1 + q ≤ njc + 7) :
    ∃ r, dictGet d' key = some (.array r cpu) ∧ r.shape = [nic + 7, njc + 7, if cpu then npz + 1 else 3] ∧
      ∀ i j l, i < nic + 7 → j < njc + 7 → l < 3 →
        r.get [i, j, l] = if 1 ≤ i ∧ i < 1 + p ∧ 1 ≤ j ∧ j < 1 + q then a.get [i - 1, j - 1, l] else z := by
  obtain ⟨d1, h1, h2⟩ := made h
  obtain ⟨v, h3, h4⟩ := (special_get z cpu _ h1).2.2.1 key (by simpa [vVars] using hk) _ hv
  obtain ⟨c, c1, c2, c3⟩ := assign_ok z a [1, 1] [nic + 7, njc + 7, 3] 1
    (by rw [ha]; exact ⟨hp, hq, by omega, trivial⟩) (by rw [ha]; rfl)
  rw [ha] at c1
  obtain ⟨m, m1, m2, m3, -⟩ := C98_full z c { shape := some [nic + 7, njc + 7, 3], origin := [1, 1, 0] } [nic + 7, njc + 7, 3] rfl rfl
    (by simp [c2]) (fun _ => rfl) (by simp [c2]) rfl (.inl (by simp [c2])) 0 (by rw [c2]; exact ⟨by omega, by omega, by omega, trivial⟩)
    (by simp [c2])
  simp only [List.zipWith_cons_cons, List.zipWith_nil_left] at c1
  simp only [vvar, fullShape_eq hg, ha, c1, bind, Except.bind, c2, m1, stored, Except.ok.injEq] at h3
  subst h3
  obtain ⟨v', h6, h7⟩ := h2 _ _ h4
  obtain ⟨r, r1, r2, r3⟩ := plain_directions z cpu hg m.array m2 hz
  rw [r1] at h6
  injection h6 with h6
  refine ⟨r, by rw [← h6] at h7; exact h7, r2, fun i j l hi hj hl => ?_⟩
  rw [r3 i j l hi hj hl, m3 [i, j, l] ⟨hi, hj, hl, trivial⟩]
  simp [placed, inBox, hi, hj, hl, c2, c3, ha, and_assoc]

/-- C133: the vector along the western or eastern edge is the same for every `i`. -/
theorem C133_edge_vectors {z : V} {cpu : Bool} {g : Grid} {nic njc npz n : Nat} {d d' : Data V}
    (h : makeGridStorage z cpu g d = .ok d') (hg : IsLocal g nic njc npz) {key : String}
    (hk : key = "edge_vect_w" ∨ key = "edge_vect_e") {a : Nd V} {b : Bool} (hv : dictGet d key = some (.array a b))
    (ha : a.shape = [n]) (hn : n ≤ njc + 7) :
    ∃ r, dictGet d' key = some (.array r cpu) ∧ r.shape = [nic + 7, njc + 7] ∧
      ∀ i j, i < nic + 7 → j < njc + 7 → r.get [i, j] = if j < n then a.get [j] else z := by
  obtain ⟨d1, h1, h2⟩ := made h
  obtain ⟨v, h3, h4⟩ := (special_get z cpu _ h1).2.2.2.2.2 (key, 1) (by rcases hk with rfl | rfl <;> decide) _ hv
  obtain ⟨c, c1, c2, c3⟩ := assign1 z a n 0 (njc + 7) ha (by omega)
  simp only [Nat.zero_add] at c1
  have hc : ∃ m, (edgeVect z cpu [nic + 7, njc + 7, npz + 1] 1 (.array a b)) = .ok (.array m cpu) ∧ m.shape = [nic + 7, njc + 7] ∧
      ∀ i j, i < nic + 7 → j < njc + 7 → m.get [i, j] = c.get [j] := by
    have e : (repeatAxis (newaxis c 0) (nic + 7) 0).shape = [nic + 7, njc + 7] := by
      simp [repeatAxis, newaxis, c2, List.modify]
    obtain ⟨x, x1, x2, x3⟩ := assign2 z (repeatAxis (newaxis c 0) (nic + 7) 0) (nic + 7) (njc + 7) 0 0 (nic + 7) (njc + 7) e
      (by omega) (by omega)
    simp only [Nat.zero_add] at x1
    refine ⟨x, ?_, x2, fun i j hi hj => ?_⟩
    · simp [edgeVect, ha, c1, bind, Except.bind, e, makeStorageData, maskAndShape, defaultMask, dataAny, data2, hasDummy, x1,
        translateOrigin, maskToDims, pure, Except.pure, stored]
      rfl
    · rw [x3]
      simp [placed, inBox, hi, hj, repeatAxis, newaxis, List.modify, c2]
  obtain ⟨m, m1, m2, m3⟩ := hc
  rw [fullShape_eq hg] at h3
  rw [m1] at h3
  injection h3 with h3
  subst h3
  obtain ⟨v', h6, h7⟩ := h2 _ _ h4
  obtain ⟨r, r1, r2, r3⟩ := plain_whole z cpu hg m m2
  rw [r1] at h6
  injection h6 with h6
  refine ⟨r, by rw [← h6] at h7; exact h7, r2, fun i j hi hj => ?_⟩
  rw [r3 i j hi hj, m3 i j hi hj, c3]
  simp [placed, ha, inBox]

theorem edge_row (z : V) (cpu : Bool) (nic njc npz n : Nat) (a : Nd V) (b : Bool) (ha : a.shape = [n]) (hn : 3 + n ≤ njc + 7) :
    ∃ m, edge z cpu [nic + 7, njc + 7, npz + 1] 1 (.array a b) = .ok (.array m cpu) ∧ m.shape = [1, njc + 7] ∧
      ∀ j, j < njc + 7 → m.get [0, j] = if 3 ≤ j ∧ j < 3 + n then a.get [j - 3] else z := by
  obtain ⟨m, m1, m2, m3, -⟩ := C98_row z a
    { shape := some [nic + 7, njc + 7, npz + 1], start := [0, 0, 3], axis := 1 } n (nic + 7) (njc + 7) (npz + 1) 0 0 3 3 3 0 ha
    ⟨rfl, rfl, rfl, rfl, rfl⟩ rfl rfl rfl hn
  refine ⟨m.array, by simp only [edge, m1, stored], m2, fun j hj => ?_⟩
  rw [m3 j hj]
  simp [placed, ha, inBox]

theorem edge_line (z : V) (cpu : Bool) (nic njc npz n : Nat) (a : Nd V) (b : Bool) (ha : a.shape = [n]) (hn : 3 + n ≤ nic + 7) :
    ∃ m, edge z cpu [nic + 7, njc + 7, npz + 1] 0 (.array a b) = .ok (.array m cpu) ∧ m.shape = [nic + 7] ∧
      ∀ i, i < nic + 7 → m.get [i] = if 3 ≤ i ∧ i < 3 + n then a.get [i - 3] else z := by
  obtain ⟨m, m1, m2, m3, -⟩ := (C98_line z a
    { shape := some [nic + 7, njc + 7, npz + 1], start := [0, 0, 3], axis := 0 } n (nic + 7) (njc + 7) (npz + 1) 0 0 3 3 3 0 ha
    ⟨rfl, rfl, rfl, rfl, rfl⟩ rfl rfl).2 rfl hn
  refine ⟨m.array, by simp only [edge, m1, stored], m2, fun j hj => ?_⟩
  rw [m3 j hj]
  simp [placed, ha, inBox]

/-- C133: on a GPU the factors along the western and eastern edge are a row, and those along the southern and northern edge are a
column, that begin after the halo. -/
theorem C133_edges {z : V} {g : Grid} {nic njc npz n : Nat} {d d' : Data V}
    (h : makeGridStorage z false g d = .ok d') (hg : IsLocal g nic njc npz) {key : String} {a : Nd V} {b : Bool}
    (hv : dictGet d key = some (.array a b)) (ha : a.shape = [n]) :
    (key = "edge_w" ∨ key = "edge_e" → 3 + n ≤ njc + 7 → ∃ r, dictGet d' key = some (.array r false) ∧ r.shape = [1, njc + 7] ∧
      ∀ j, j < njc + 7 → r.get [0, j] = if 3 ≤ j ∧ j < 3 + n then a.get [j - 3] else z) ∧
    (key = "edge_s" ∨ key = "edge_n" → 3 + n ≤ nic + 7 → ∃ r, dictGet d' key = some (.array r false) ∧ r.shape = [nic + 7] ∧
      ∀ i, i < nic + 7 → r.get [i] = if 3 ≤ i ∧ i < 3 + n then a.get [i - 3] else z) := by
  obtain ⟨d1, h1, h2⟩ := made h
  have hs := (special_get z false _ h1).2.2.2.2.1
  constructor
  · intro hk hn
    obtain ⟨v, h3, h4⟩ := hs (key, 1) (by rcases hk with rfl | rfl <;> decide) _ hv
    obtain ⟨m, m1, m2, m3⟩ := edge_row z false nic njc npz n a b ha hn
    rw [fullShape_eq hg] at h3
    rw [m1] at h3
    injection h3 with h3
    subst h3
    obtain ⟨v', h6, h7⟩ := h2 _ _ h4
    simp only [plain, Except.ok.injEq] at h6
    exact ⟨m, by rw [← h6] at h7; exact h7, m2, m3⟩
  · intro hk hn
    obtain ⟨v, h3, h4⟩ := hs (key, 0) (by rcases hk with rfl | rfl <;> decide) _ hv
    obtain ⟨m, m1, m2, m3⟩ := edge_line z false nic njc npz n a b ha hn
    rw [fullShape_eq hg] at h3
    rw [m1] at h3
    injection h3 with h3
    subst h3
    obtain ⟨v', h6, h7⟩ := h2 _ _ h4
    simp only [plain, Except.ok.injEq] at h6
    exact ⟨m, by rw [← h6] at h7; exact h7, m2, m3⟩

/-- C133, not so: on a CPU the row of factors along the western or eastern edge becomes a plane over the whole domain of which only
the first line, in the halo, has the factors; all points of the domain have the fill value. -/
theorem C133_edge_row_violated {z : V} {g : Grid} {nic njc npz n : Nat} {d d' : Data V}
    (h : makeGridStorage z true g d = .ok d') (hg : IsLocal g nic njc npz) {key : String} (hk : key = "edge_w" ∨ key = "edge_e")
    {a : Nd V} {b : Bool} (hv : dictGet d key = some (.array a b)) (ha : a.shape = [n]) (hn : 3 + n ≤ njc + 7) :
    ∃ r, dictGet d' key = some (.array r true) ∧ r.shape = [nic + 7, njc + 7] ∧
      ∀ i j, i < nic + 7 → j < njc + 7 → r.get [i, j] = if i = 0 ∧ 3 ≤ j ∧ j < 3 + n then a.get [j - 3] else z := by
  obtain ⟨d1, h1, h2⟩ := made h
  obtain ⟨v, h3, h4⟩ := (special_get z true _ h1).2.2.2.2.1 (key, 1) (by rcases hk with rfl | rfl <;> decide) _ hv
  obtain ⟨m, m1, m2, m3⟩ := edge_row z true nic njc npz n a b ha hn
  rw [fullShape_eq hg] at h3
  rw [m1] at h3
  injection h3 with h3
  subst h3
  obtain ⟨v', h6, h7⟩ := h2 _ _ h4
  obtain ⟨r, r1, r2, r3⟩ := plain_plane z true hg m m2 (s := 0) (by unfold StartsAt; omega) (by omega) (by omega)
  rw [r1] at h6
  injection h6 with h6
  refine ⟨r, by rw [← h6] at h7; exact h7, r2, fun i j hi hj => ?_⟩
  rw [r3 i j hi hj]
  simp only [placed, m2, inBox, List.zipWith_cons_cons, List.zipWith_nil_left, Bool.and_true, Bool.and_eq_true, decide_eq_true_eq,
    Nat.sub_zero, Nat.zero_le, true_and, Nat.zero_add]
  by_cases h0 : i = 0
  · subst h0
    rw [if_pos (by omega), m3 j hj]
    simp only [true_and]
  · rw [if_neg (by omega), if_neg (by omega)]

/-- C133, not so: on a CPU the factors along the southern or northern edge of a domain that has more points in a row than levels
cannot be stored at all. -/
theorem C133_edge_line_violated (z : V) {g : Grid} {nic njc npz n : Nat} (d : Data V) (hg : IsLocal g nic njc npz)
    (hz : npz < nic + 6) {key : String} (hk : key = "edge_s" ∨ key = "edge_n") {a : Nd V} {b : Bool}
    (hv : dictGet d key = some (.array a b)) (ha : a.shape = [n]) (hn : 3 + n ≤ nic + 7) (d' : Data V) :
    makeGridStorage z true g d ≠ .ok d' := by
  intro h
  obtain ⟨d1, h1, h2⟩ := made h
  obtain ⟨v, h3, h4⟩ := (special_get z true _ h1).2.2.2.2.1 (key, 0) (by rcases hk with rfl | rfl <;> decide) _ hv
  obtain ⟨m, m1, m2, m3⟩ := edge_line z true nic njc npz n a b ha hn
  rw [fullShape_eq hg] at h3
  rw [m1] at h3
  injection h3 with h3
  subst h3
  obtain ⟨v', h6, h7⟩ := h2 _ _ h4
  rw [(plain_line z true hg m m2).2 (by omega) (by omega)] at h6
  cases h6

/-- The grid of the first of four ranks on a tile. -/
example : IsLocal (Grid.make (2 * 2 + 1) (2 * 2 + 1) 4 (2, 2) 0) 2 2 4 := by
  rw [grid_make (by omega)]
  exact ⟨⟨rfl, rfl, rfl, rfl⟩, ⟨rfl, rfl, rfl, rfl⟩, rfl⟩

/-- A grid with a plane on its cells, a composite variable, unit vectors and an edge is stored. -/
def exData : Data Int :=
  [("area", .array ⟨[2, 2], fun i => 10 * (i.getD 0 0 : Nat) + (i.getD 1 0 : Nat)⟩ true),
   ("sin_sg", .array ⟨[9, 9, 9], fun i => (i.getD 2 0 : Nat)⟩ true),
   ("ee1", .array ⟨[3, 9, 9], fun i => (i.getD 0 0 : Nat)⟩ true),
   ("vlon", .array ⟨[4, 4, 3], fun i => (i.getD 0 0 : Nat)⟩ true),
   ("edge_w", .array ⟨[3], fun _ => 5⟩ true),
   ("edge_vect_w", .array ⟨[9], fun i => (i.getD 0 0 : Nat)⟩ true)]

def exGrid : Grid := Grid.make 5 5 4 (2, 2) 0

def peek (r : Except Err (Data Int)) (k : String) (idx : List Nat) : Option (List Nat × Int) :=
  match r with
  | .ok d => match dictGet d k with
    | some (.array a _) => some (a.shape, a.get idx)
    | _ => none
  | .error _ => none

example : peek (makeGridStorage 0 true exGrid exData) "area" [4, 3] = some ([9, 9], 10) ∧
    peek (makeGridStorage 0 true exGrid exData) "sin_sg4" [8, 3] = some ([9, 9], 3) ∧
    peek (makeGridStorage 0 true exGrid exData) "ee1" [8, 3, 2] = some ([9, 9, 5], 2) ∧
    peek (makeGridStorage 0 false exGrid exData) "vlon" [4, 3, 2] = some ([9, 9, 3], 3) ∧
    peek (makeGridStorage 0 true exGrid exData) "edge_w" [3, 3] = some ([9, 9], 0) ∧
    peek (makeGridStorage 0 true exGrid exData) "edge_w" [0, 3] = some ([9, 9], 5) ∧
    peek (makeGridStorage 0 false exGrid exData) "edge_w" [0, 3] = some ([1, 9], 5) ∧
    peek (makeGridStorage 0 true exGrid exData) "edge_vect_w" [3, 6] = some ([9, 9], 6) := by
  refine ⟨?_, ?_, ?_, ?_, ?_, ?_, ?_, ?_⟩ <;> decide +kernel

end NDSL.GridStorage
