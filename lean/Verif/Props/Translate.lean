import Verif.Model.Translate
import Verif.Props.StorageData
import Verif.Props.StateTransfer
import Verif.Props.Snapshots
import Verif.Props.Namelist
import Mathlib.Tactic.Ring
/-
C100: tests against reference data.
-/
namespace NDSL.Translate
open NDSL.Storage
variable {V : Type}

/-! ### inputs -/

/-- The same numbers by the same names. -/
def SameNums (d e : Dict V) : Prop := ∀ n k, dictGet d n = some (.num k) ↔ dictGet e n = some (.num k)

theorem ix_update_congr {d e : Dict V} (h : SameNums d e) (x : Ix) : x.update d = x.update e := by
  cases x with
  | num n => rfl
  | name s =>
    have hs := h s
    simp only [Ix.update]
    cases hd : dictGet d s with
    | none =>
      cases he : dictGet e s with
      | none => rfl
      | some v =>
        cases v with
        | num k => have := (hs k).mpr he; rw [hd] at this; cases this
        | arr _ => rfl
        | dict _ => rfl
    | some v =>
      cases v with
      | num k => rw [(hs k).mp hd]
      | arr _ =>
        cases he : dictGet e s with
        | none => rfl
        | some v =>
          cases v with
          | num k => have := (hs k).mpr he; rw [hd] at this; cases this
          | arr _ => rfl
          | dict _ => rfl
      | dict _ =>
        cases he : dictGet e s with
        | none => rfl
        | some v =>
          cases v with
          | num k => have := (hs k).mpr he; rw [hd] at this; cases this
          | arr _ => rfl
          | dict _ => rfl

theorem update_congr {d e : Dict V} (h : SameNums d e) (i : Info) : i.update d = i.update e := by
  have : (Ix.update d) = (Ix.update e) := funext (ix_update_congr h)
  simp only [Info.update, this]

theorem getArr_ok {d : Dict V} {n : String} {a : Nd V} (h : getArr d n = .ok a) : dictGet d n = some (.arr a) := by
  unfold getArr at h
  split at h
  · rename_i b hb; cases h; exact hb
  · cases h
  · cases h

theorem sameNums_set {d : Dict V} {n : String} {a b : Nd V} (h : dictGet d n = some (.arr a)) :
    SameNums (dictSet d n (.arr b)) d := by
  intro m k
  rw [dictGet_set]
  by_cases hm : m = n
  · subst hm; rw [if_pos rfl, h]; simp
  · rw [if_neg hm]

theorem step_ok {z : V} {N : Count V} {t : Test} {w w' : Work V} {d : String} {i : Info}
    (h : inputStep z N t w d i = .ok w') :
    ∃ a x, dictGet w.inp (i.serial d) = some (.arr a) ∧ makeInput z N t d i (moved a i) = .ok x ∧
      w'.out = dictSet w.out d x ∧ ∃ b, w'.inp = dictSet w.inp (i.serial d) (.arr b) := by
  unfold inputStep at h
  simp only [bind, Except.bind] at h
  cases h1 : getArr w.inp (i.serial d) with
  | error e => rw [h1] at h; cases h
  | ok a =>
    rw [h1] at h; simp only at h
    cases h2 : makeInput z N t d i (moved a i) with
    | error e => rw [h2] at h; cases h
    | ok x =>
      rw [h2] at h; simp only at h
      cases h3 : getArr w.caller (i.serial d) with
      | error e => rw [h3] at h; cases h
      | ok s =>
        rw [h3] at h; cases h
        exact ⟨a, x, getArr_ok h1, h2, rfl, _, rfl⟩

theorem serial_update (i : Info) (D : Dict V) (d : String) : (i.update D).serial d = i.serial d := rfl
theorem kaxis_update (i : Info) (D : Dict V) : (i.update D).kaxis = i.kaxis := rfl

theorem inputLoop_ok {z : V} {N : Count V} {t : Test} : ∀ (l : List (String × Info)) (w : Work V)
    {r : List (String × Info) × Work V}, inputLoop z N t l w = .ok r →
    (∀ d, d ∉ l.map (·.1) → dictGet r.2.out d = dictGet w.out d) ∧
    ((l.map (·.1)).Nodup → (l.map fun e => e.2.serial e.1).Nodup → ∀ d i, (d, i) ∈ l →
      ∃ a x, dictGet w.inp (i.serial d) = some (.arr a) ∧
        makeInput z N t d (i.update w.inp) (moved a (i.update w.inp)) = .ok x ∧ dictGet r.2.out d = some x) := by
  intro l
  induction l with
  | nil =>
    intro w r h
    cases h
    exact ⟨fun _ _ => rfl, fun _ _ _ _ h => (by cases h)⟩
  | cons e l ih =>
    obtain ⟨d0, i0⟩ := e
    intro w r h
    simp only [inputLoop, bind, Except.bind] at h
    cases h1 : inputStep z N t w d0 (i0.update w.inp) with
    | error e => rw [h1] at h; cases h
    | ok w1 =>
      rw [h1] at h; simp only at h
      cases h2 : inputLoop z N t l w1 with
      | error e => rw [h2] at h; cases h
      | ok r1 =>
        rw [h2] at h; cases h
        obtain ⟨a0, x0, ha0, hx0, ho, b, hb⟩ := step_ok h1
        obtain ⟨ih1, ih2⟩ := ih w1 h2
        rw [serial_update] at ha0 hb
        refine ⟨fun d hd => ?_, fun hn hs d i hm => ?_⟩
        · rw [List.map_cons, List.mem_cons, not_or] at hd
          show dictGet r1.2.out d = _
          rw [ih1 d hd.2, ho, dictGet_set, if_neg hd.1]
        · rw [List.map_cons, List.nodup_cons] at hn hs
          rcases List.mem_cons.mp hm with hm | hm
          · cases hm
            refine ⟨a0, x0, ha0, hx0, ?_⟩
            show dictGet r1.2.out d0 = _
            rw [ih1 d0 hn.1, ho, dictGet_set, if_pos rfl]
          · obtain ⟨a, x, ha, hx, hr⟩ := ih2 hn.2 hs.2 d i hm
            have hne : i.serial d ≠ i0.serial d0 := fun e => hs.1 (List.mem_map.mpr ⟨_, hm, e⟩)
            rw [hb, dictGet_set, if_neg hne] at ha
            have hsn : SameNums w1.inp w.inp := by rw [hb]; exact sameNums_set ha0
            rw [update_congr hsn] at hx
            exact ⟨a, x, ha, hx, hr⟩

theorem makeInputs_ok {z : V} {N : Count V} {t : Test} {inputs : Dict V} {r : Test × Dict V × Dict V}
    (h : makeInputs z N t inputs = .ok r) (hn : (t.dataVars.map (·.1)).Nodup)
    (hs : (t.dataVars.map fun e => e.2.serial e.1).Nodup) :
    r.1.outVars = t.outVars ∧ r.1.grid = t.grid ∧ r.1.tracers = t.tracers ∧
    ∀ d i, (d, i) ∈ t.dataVars → ∃ a x, dictGet inputs (i.serial d) = some (.arr a) ∧
      makeInput z N t d (i.update inputs) (moved a i) = .ok x ∧ dictGet r.2.1 d = some x := by
  simp only [makeInputs, bind, Except.bind] at h
  cases h1 : params inputs t.parameters with
  | error e => rw [h1] at h; cases h
  | ok p =>
    rw [h1] at h; simp only at h
    cases h2 : inputLoop z N t t.dataVars ⟨inputs, p.foldl (fun d e => dictSet d e.1 e.2) [], inputs⟩ with
    | error e => rw [h2] at h; cases h
    | ok q =>
      rw [h2] at h; cases h
      exact ⟨rfl, rfl, rfl, fun d i hm => (inputLoop_ok _ _ h2).2 hn hs d i hm⟩

/-! ### squeezing, moving and cutting -/

theorem squeeze_fold : ∀ (shape idx acc : List Nat), (∀ n ∈ shape, n ≠ 1) → idx.length = shape.length →
    (shape.foldl (fun (acc : List Nat × List Nat) n =>
      if n = 1 then (acc.1 ++ [0], acc.2) else (acc.1 ++ [acc.2.headD 0], acc.2.tail)) (acc, idx)).1 = acc ++ idx
  | [], [], acc, _, _ => by simp
  | n :: ns, x :: xs, acc, h, hl => by
    rw [List.foldl_cons, if_neg (h n List.mem_cons_self)]
    simp only [List.headD_cons, List.tail_cons]
    rw [squeeze_fold ns xs _ (fun m hm => h m (List.mem_cons_of_mem _ hm)) (by simpa using hl)]
    simp

theorem squeeze_shape (a : Nd V) (h : ∀ n ∈ a.shape, n ≠ 1) : (squeeze a).shape = a.shape := by
  simp only [squeeze]
  rw [List.filter_eq_self]
  intro n hn; simpa using h n hn

theorem squeeze_get (a : Nd V) (h : ∀ n ∈ a.shape, n ≠ 1) (idx : List Nat) (hl : idx.length = a.shape.length) :
    (squeeze a).get idx = a.get idx := by
  simp only [squeeze]
  rw [squeeze_fold a.shape idx [] h hl]; rfl

theorem isIndex_len : ∀ (shape idx : List Nat), isIndex shape idx → idx.length = shape.length
  | [], [], _ => rfl
  | _ :: ns, _ :: is, h => by simp [isIndex_len ns is h.2]

theorem cut_box {a : Nd V} {m0 m1 m2 s0 s1 s2 p0 p1 p2 : Nat} (hm : a.shape = [m0, m1, m2])
    (h0 : s0 + p0 ≤ m0) (h1 : s1 + p1 ≤ m1) (h2 : s2 + p2 ≤ m2) :
    ∃ c, cut a [(s0, s0 + p0), (s1, s1 + p1), (s2, s2 + p2)] = .ok c ∧ c.shape = [p0, p1, p2] ∧
      ∀ i j k, c.get [i, j, k] = a.get [s0 + i, s1 + j, s2 + k] := by
  have e0 : min s0 m0 = s0 := by omega
  have e1 : min s1 m1 = s1 := by omega
  have e2 : min s2 m2 = s2 := by omega
  have f0 : min (s0 + p0) m0 = s0 + p0 := by omega
  have f1 : min (s1 + p1) m1 = s1 + p1 := by omega
  have f2 : min (s2 + p2) m2 = s2 + p2 := by omega
  have : regions a.shape [(s0, s0 + p0), (s1, s1 + p1), (s2, s2 + p2)] = some [(s0, p0), (s1, p1), (s2, p2)] := by
    simp [hm, regions, e0, e1, e2, f0, f1, f2]
  refine ⟨⟨[p0, p1, p2], fun idx => a.get (List.zipWith (fun (r : Nat × Nat) i => r.1 + i)
    [(s0, p0), (s1, p1), (s2, p2)] idx)⟩, ?_, rfl, fun i j k => rfl⟩
  simp only [cut, this]; rfl

/-- What a reference array becomes: it is placed at its start in an array of zeros. -/
theorem makeInput_ok {z : V} {N : Count V} {t : Test} {d : String} {i : Info} {a : Nd V} {x : In V}
    {p0 p1 p2 s0 s1 s2 m0 m1 m2 : Nat}
    (h : makeInput z N t d i a = .ok x) (hs : a.shape = [p0, p1, p2]) (g0 : p0 ≠ 1) (g1 : p1 ≠ 1) (g2 : p2 ≠ 1)
    (hd : i.dummy = none) (hst : startIndices t.grid [p0, p1, p2] i = .ok [s0, s1, s2])
    (hm : t.maxshape = [m0, m1, m2]) (h0 : s0 + p0 ≤ m0) (h1 : s1 + p1 ≤ m1) (h2 : s2 + p2 ≤ m2) :
    ∃ b, x = .arr b ∧ b.shape = [m0, m1, m2] ∧
      ∀ idx, isIndex [m0, m1, m2] idx → b.get idx = placed z (counted N.dec i a) [s0, s1, s2] idx := by
  have hcs : (counted N.dec i a).shape = [p0, p1, p2] := by
    unfold counted mapNd; split <;> exact hs
  have hno : ∀ n ∈ (counted N.dec i a).shape, n ≠ 1 := by
    rw [hcs]; intro n hn
    simp only [List.mem_cons, List.not_mem_nil, or_false] at hn
    rcases hn with rfl | rfl | rfl <;> assumption
  have hsq : (squeeze (counted N.dec i a)).shape = [p0, p1, p2] := by rw [squeeze_shape _ hno, hcs]
  unfold makeInput at h
  rw [hs, hst] at h
  simp only [bind, Except.bind, List.length_cons, List.length_nil] at h
  rw [if_neg (by omega)] at h
  unfold storageData at h
  have hu : useShape t.maxshape i.dummy (i.axis.getD 2) (squeeze (counted N.dec i a)).shape.length i.fullShape =
      .ok ([m0, m1, m2], i.axis.getD 2) := by
    simp [useShape, hd, hasDummy, hsq, hm]
  simp only [hu, bind, Except.bind] at h
  simp only [hsq] at h
  obtain ⟨m, e1, e2, e3, -⟩ := C98_full z (squeeze (counted N.dec i a))
    { shape := some [m0, m1, m2], origin := [s0, s1, s2], start := [s0, s1, s2], dummy := i.dummy, axis := i.axis.getD 2,
      readOnly := decide (d ∉ t.writeVars) } [m0, m1, m2] rfl rfl (by rw [hsq]; exact Nat.le_refl 3) (fun _ => rfl)
    (by rw [hsq]; rfl) rfl (Or.inl (by rw [hsq]; rfl)) 0 (by rw [hsq]; exact ⟨h0, h1, h2, trivial⟩) (by rw [hsq]; rfl)
  simp only [List.length_cons, List.length_nil] at h
  simp only [show ((0 + 1 + 1 + 1 : Nat) == 4) = false from rfl, Bool.false_eq_true, if_false] at h
  rw [e1] at h
  cases h
  refine ⟨m.array, rfl, e2, fun idx hi => ?_⟩
  rw [e3 idx hi]
  simp only [List.replicate, List.append_nil, placed, hsq, hcs]
  split
  · rw [squeeze_get _ hno]
    have := isIndex_len _ _ hi
    simp [this, hcs]
  · rfl

/-! ### outputs -/

theorem outputLoop_ok {z : V} {N : Count V} {t : Test} {vals : Dict V} : ∀ (l : List (String × Info))
    (out : List (String × Nd V)) {r}, outputLoop z N t vals l out = .ok r →
    (∀ s, s ∉ (l.map fun e => e.2.serial e.1) → dictGet r.2 s = dictGet out s) ∧
    ((l.map fun e => e.2.serial e.1).Nodup → ∀ d i, (d, i) ∈ l →
      ∃ x b, dictGet vals d = some x ∧ output z N t (i.update vals) x = .ok b ∧ dictGet r.2 (i.serial d) = some b) := by
  intro l
  induction l with
  | nil => intro out r h; cases h; exact ⟨fun _ _ => rfl, fun _ _ _ h => (by cases h)⟩
  | cons e l ih =>
    obtain ⟨d0, i0⟩ := e
    intro out r h
    simp only [outputLoop, bind, Except.bind] at h
    cases h1 : dictGet vals d0 with
    | none => rw [h1] at h; cases h
    | some x0 =>
      rw [h1] at h; simp only at h
      cases h2 : output z N t (i0.update vals) x0 with
      | error e => rw [h2] at h; cases h
      | ok b0 =>
        rw [h2] at h; simp only at h
        cases h3 : outputLoop z N t vals l (dictSet out ((i0.update vals).serial d0) b0) with
        | error e => rw [h3] at h; cases h
        | ok r1 =>
          rw [h3] at h; cases h
          obtain ⟨ih1, ih2⟩ := ih _ h3
          rw [serial_update] at ih1
          refine ⟨fun s hs => ?_, fun hn d i hm => ?_⟩
          · rw [List.map_cons, List.mem_cons, not_or] at hs
            show dictGet r1.2 s = _
            rw [ih1 s hs.2, dictGet_set, if_neg hs.1]
          · rw [List.map_cons, List.nodup_cons] at hn
            rcases List.mem_cons.mp hm with hm | hm
            · cases hm
              refine ⟨x0, b0, h1, h2, ?_⟩
              show dictGet r1.2 _ = _
              rw [ih1 _ hn.1, dictGet_set, if_pos rfl]
            · exact ih2 hn.2 d i hm

theorem updateDict_get : ∀ (e d : Dict V) (n : String),
    dictGet (updateDict d e) n = dictGet d n ∨ ∃ x, (n, x) ∈ e ∧ dictGet (updateDict d e) n = some x := by
  intro e
  induction e with
  | nil => intro d n; exact Or.inl rfl
  | cons y e ih =>
    obtain ⟨m, y⟩ := y
    intro d n
    rcases ih (dictSet d m y) n with h | ⟨x, hx, h⟩
    · rw [dictGet_set] at h
      by_cases hm : n = m
      · rw [if_pos hm] at h
        exact Or.inr ⟨y, by rw [hm]; exact List.mem_cons_self, h⟩
      · rw [if_neg hm] at h; exact Or.inl h
    · exact Or.inr ⟨x, List.mem_cons_of_mem _ hx, h⟩

/-- The code under test leaves a variable alone: what it returns by this name, if anything, is what it was given. -/
def Keeps (f : Dict V → Except Err (Option (Dict V))) (d : String) : Prop :=
  ∀ D o, f D = .ok (some o) → ∀ x, (d, x) ∈ o → dictGet D d = some x

theorem compute_ok {z : V} {N : Count V} {t t' : Test} {f : Dict V → Except Err (Option (Dict V))} {inputs : Dict V}
    {out : List (String × Nd V)} {caller : Dict V} (h : compute z N t f inputs = .ok (t', out, caller))
    {d : String} {i j : Info} (hi : (d, i) ∈ t.dataVars) (hj : (d, j) ∈ t.outVars) (hf : Keeps f d)
    (hn : (t.dataVars.map (·.1)).Nodup) (hs : (t.dataVars.map fun e => e.2.serial e.1).Nodup)
    (ho : (t.outVars.map fun e => e.2.serial e.1).Nodup) :
    ∃ (a : Nd V) (x : In V) (b : Nd V) (m : Test) (vals : Dict V), dictGet inputs (i.serial d) = some (.arr a) ∧ makeInput z N t d (i.update inputs) (moved a i) = .ok x ∧
      m.grid = t.grid ∧ m.tracers = t.tracers ∧ output z N m (j.update vals) x = .ok b ∧
      dictGet out (j.serial d) = some b := by
  simp only [compute, bind, Except.bind] at h
  cases h1 : makeInputs z N t inputs with
  | error e => rw [h1] at h; cases h
  | ok m =>
    rw [h1] at h; simp only at h
    obtain ⟨e1, e2, e3, hm⟩ := makeInputs_ok h1 hn hs
    obtain ⟨a, x, ha, hx, hr⟩ := hm d i hi
    cases h2 : f m.2.1 with
    | error e => rw [h2] at h; cases h
    | ok o =>
      rw [h2] at h; simp only at h
      have hv : dictGet (results m.2.1 o) d = dictGet m.2.1 d := by
        cases o with
        | none => rfl
        | some o =>
          rcases updateDict_get o m.2.1 d with h | ⟨y, hy, h⟩
          · exact h
          · show dictGet (updateDict m.2.1 o) d = _
            rw [h, hf _ _ h2 y hy]
      cases h3 : outputLoop z N m.1 (results m.2.1 o) m.1.outVars [] with
      | error e => rw [h3] at h; cases h
      | ok r =>
        rw [h3] at h; cases h
        rw [e1] at h3
        obtain ⟨y, b, hy, hb, hd⟩ := (outputLoop_ok _ _ h3).2 ho d j hj
        rw [hv, hr] at hy; cases hy
        exact ⟨a, x, b, m.1, results m.2.1 o, ha, hx, e2, e3, hb, hd⟩

theorem placed_box {z : V} {a : Nd V} {p0 p1 p2 s0 s1 s2 i j k : Nat} (hs : a.shape = [p0, p1, p2]) (hi : i < p0)
    (hj : j < p1) (hk : k < p2) : placed z a [s0, s1, s2] [s0 + i, s1 + j, s2 + k] = a.get [i, j, k] := by
  have : inBox [s0, s1, s2] a.shape [s0 + i, s1 + j, s2 + k] = true := by
    simp [hs, inBox, hi, hj, hk]
  rw [placed, if_pos this]
  simp

/-- Moving an axis and back. -/
theorem move_back {a c : Nd V} {k p0 p1 p2 : Nat} (hk : k < 3) (hr : a.shape.length = 3)
    (hm : (moveFrom a k).shape = [p0, p1, p2]) (hc : c.shape = [p0, p1, p2])
    (hg : ∀ i j l, i < p0 → j < p1 → l < p2 → c.get [i, j, l] = (moveFrom a k).get [i, j, l]) :
    (moveLast c k).shape = a.shape ∧ ∀ idx, isIndex a.shape idx → (moveLast c k).get idx = a.get idx := by
  obtain ⟨sh, get⟩ := a
  simp only at hr
  match sh, hr with
  | [q0, q1, q2], _ =>
    have hk3 : k = 0 ∨ k = 1 ∨ k = 2 := by omega
    rcases hk3 with rfl | rfl | rfl
    all_goals
      simp [moveFrom] at hm
      obtain ⟨rfl, rfl, rfl⟩ := hm
      refine ⟨by simp [moveLast, hc], fun idx hi => ?_⟩
      match idx, hi with
      | [x, y, w], ⟨hx, hy, hw, _⟩ =>
        simp only [moveLast, List.eraseIdx, List.getD_cons_zero, List.getD_cons_succ, List.cons_append, List.nil_append]
        rw [hg _ _ _ (by assumption) (by assumption) (by assumption)]
        simp [moveFrom]

/-- C100: the reference data of a variable which the code under test leaves alone comes back as it was: brought into
the storages at its start, cut out of them, with the vertical axis moved and back and indices counted from zero and
back. -/
theorem C100_round_trip {z : V} {N : Count V} {t t' : Test}
    {f : Dict V → Except Err (Option (Dict V))} {inputs : Dict V} {out : List (String × Nd V)} {caller : Dict V}
    (h : compute z N t f inputs = .ok (t', out, caller))
    {d : String} {i j : Info} (hi : (d, i) ∈ t.dataVars) (hj : (d, j) ∈ t.outVars) (hf : Keeps f d)
    (hn : (t.dataVars.map (·.1)).Nodup) (hs : (t.dataVars.map fun e => e.2.serial e.1).Nodup)
    (ho : (t.outVars.map fun e => e.2.serial e.1).Nodup)
    {a : Nd V} (ha : dictGet inputs (i.serial d) = some (.arr a)) (hr : a.shape.length = 3)
    (hdum : i.dummy = none) (hix : j.indexVariable = i.indexVariable)
    (hN : i.indexVariable = true → ∀ v, N.inc (N.dec v) = v) (hk : j.kaxis = i.kaxis)
    (hk3 : ∀ k, i.kaxis = some k → k < 3)
    {p0 p1 p2 s0 s1 s2 m0 m1 m2 : Nat} (hsh : (moved a i).shape = [p0, p1, p2])
    (g0 : p0 ≠ 1) (g1 : p1 ≠ 1) (g2 : p2 ≠ 1)
    (hst : startIndices t.grid [p0, p1, p2] (i.update inputs) = .ok [s0, s1, s2])
    (hm : t.maxshape = [m0, m1, m2]) (h0 : s0 + p0 ≤ m0) (h1 : s1 + p1 ≤ m1) (h2 : s2 + p2 ≤ m2)
    (hreg : ∀ D : Dict V, region t.grid (j.update D) =
      .ok [((s0 : Int), (s0 : Int) + p0 - 1), ((s1 : Int), (s1 : Int) + p1 - 1), ((s2 : Int), (s2 : Int) + p2 - 1)]) :
    ∃ b, dictGet out (j.serial d) = some b ∧ b.shape = a.shape ∧ ∀ idx, isIndex a.shape idx → b.get idx = a.get idx := by
  obtain ⟨a', x, b, m, vals, ha', hx, hg, -, hb, hd⟩ := compute_ok h hi hj hf hn hs ho
  rw [ha] at ha'; cases ha'
  refine ⟨b, hd, ?_⟩
  obtain ⟨c, rfl, hcs, hcg⟩ := makeInput_ok hx hsh g0 g1 g2 hdum hst hm h0 h1 h2
  have hcs' : (counted N.inc (j.update vals) c).shape = [m0, m1, m2] := by
    unfold counted mapNd; split <;> exact hcs
  obtain ⟨e, he, hes, heg⟩ := cut_box hcs' h0 h1 h2
  have hsl : sliceDict [((s0 : Int), (s0 : Int) + p0 - 1), ((s1 : Int), (s1 : Int) + p1 - 1),
      ((s2 : Int), (s2 : Int) + p2 - 1)] (min c.shape.length 3) =
      .ok [(s0, s0 + p0), (s1, s1 + p1), (s2, s2 + p2)] := by
    have aux : ∀ s p : Nat, sliceOf ((s : Int), (s : Int) + p - 1) = .ok (s, s + p) := by
      intro s p
      have e1 : nat (s : Int) = .ok s := by simp [nat]
      have e2 : nat ((s : Int) + p - 1 + 1) = .ok (s + p) := by
        unfold nat
        rw [if_neg (by omega)]
        congr 1; omega
      simp only [sliceOf, e1, e2, bind, Except.bind]; rfl
    simp [hcs, sliceDict, List.mapM_cons, aux, bind, Except.bind, pure, Except.pure]
  have hcut : cutArray N m.grid (j.update vals) c = .ok (squeeze e) := by
    unfold cutArray
    rw [hg, hreg vals]
    simp only [bind, Except.bind]
    rw [hsl]
    simp only [hcs, List.drop, List.map_nil, List.append_nil, he]
    rfl
  have hno : ∀ n ∈ e.shape, n ≠ 1 := by
    rw [hes]; intro n hn
    simp only [List.mem_cons, List.not_mem_nil, or_false] at hn
    rcases hn with rfl | rfl | rfl <;> assumption
  have hsqs : (squeeze e).shape = [p0, p1, p2] := by rw [squeeze_shape _ hno, hes]
  have hsqg : ∀ x y w, x < p0 → y < p1 → w < p2 → (squeeze e).get [x, y, w] = (moved a i).get [x, y, w] := by
    intro x y w hx hy hw
    rw [squeeze_get _ hno _ (by rw [hes]; rfl), heg]
    have hidx : isIndex [m0, m1, m2] [s0 + x, s1 + y, s2 + w] := ⟨by omega, by omega, by omega, trivial⟩
    have hpl := hcg _ hidx
    have hcd : (counted N.dec (i.update inputs) (moved a i)).shape = [p0, p1, p2] := by
      unfold counted mapNd; split <;> exact hsh
    rw [placed_box hcd hx hy hw] at hpl
    have e1 : (j.update vals).indexVariable = i.indexVariable := hix
    have e2 : (i.update inputs).indexVariable = i.indexVariable := rfl
    cases hv : i.indexVariable with
    | false =>
      simp only [counted, e1, e2, hv, Bool.false_eq_true, if_false] at hpl ⊢
      exact hpl
    | true =>
      simp only [counted, e1, e2, hv, if_true, mapNd] at hpl ⊢
      rw [hpl, hN hv]
  have hkj : (j.update vals).kaxis = i.kaxis := hk
  simp only [output, hcut, hkj, Except.map] at hb
  cases hki : i.kaxis with
  | none =>
    rw [hki] at hb; cases hb
    have hma : moved a i = a := by simp only [moved, hki]
    rw [hma] at hsh hsqg
    refine ⟨by rw [hsqs, hsh], fun idx hi => ?_⟩
    rw [hsh] at hi
    match idx, hi with
    | [x, y, w], ⟨hx, hy, hw, _⟩ => exact hsqg x y w hx hy hw
  | some k =>
    rw [hki] at hb; cases hb
    have hma : moved a i = moveFrom a k := by simp only [moved, hki]
    rw [hma] at hsh hsqg
    exact move_back (hk3 k hki) hr hsh hsqs hsqg

/-! ### fields of 4-D data -/

theorem fold_keys {A : Type} (f : Nat → Except Err A) (names : List String) : ∀ (l : List Nat) (acc r : List (String × A)),
    l.foldlM (fun dict i => do
          let name ← fromOpt .indexError names[i]?
          let m ← f i
          return dictSet dict name m) acc = (.ok r : Except Err (List (String × A))) →
    (acc.map (·.1) ++ l.map fun i => names.getD i "").Nodup → r.map (·.1) = acc.map (·.1) ++ l.map fun i => names.getD i ""
  | [], acc, r, h, _ => by cases h; simp
  | i :: l, acc, r, h, hn => by
    rw [List.foldlM_cons] at h
    simp only [bind, Except.bind] at h
    cases h1 : names[i]? with
    | none => rw [h1] at h; cases h
    | some n =>
      rw [h1] at h; simp only [fromOpt] at h
      have hname : names.getD i "" = n := by rw [List.getD_eq_getElem?_getD, h1]; rfl
      cases h2 : f i with
      | error e => rw [h2] at h; cases h
      | ok m =>
        rw [h2] at h
        have hnot : n ∉ acc.map (·.1) := by
          rw [List.map_cons, hname] at hn
          have := (List.nodup_append.mp hn).2.2
          exact fun hm => this n hm n List.mem_cons_self rfl
        have hkeys : (dictSet acc n m).map (·.1) = acc.map (·.1) ++ [n] := by
          rw [Nml.dictSet_new _ _ _ hnot]; simp
        rw [fold_keys f names l (dictSet acc n m) r h (by
          rw [hkeys]; rw [List.map_cons, hname] at hn; simpa using hn), hkeys, List.map_cons, hname]
        simp

theorem nameIndex_getD {names : List String} (hn : names.Nodup) {q : Nat} (hq : q < names.length) :
    nameIndex names (names.getD q "") = .ok q := by
  have : names.idxOf? (names.getD q "") = some q := by
    unfold List.idxOf?
    rw [List.findIdx?_eq_some_iff_getElem]
    refine ⟨hq, by simp [hq], fun j hj he => ?_⟩
    simp only [List.getD_eq_getElem?_getD, hq, getElem?_pos, Option.getD_some, beq_iff_eq] at he
    have := (List.getElem_inj hn).mp he
    omega
  simp only [nameIndex, this]

theorem nameIndex_inj {names : List String} {m n : String} {k : Nat} (h1 : nameIndex names m = .ok k)
    (h2 : nameIndex names n = .ok k) : m = n := by
  have aux : ∀ {n}, nameIndex names n = .ok k → names[k]? = some n := by
    intro n h
    unfold nameIndex at h
    split at h
    · cases h
    · rename_i k' hk
      cases h
      unfold List.idxOf? at hk
      rw [List.findIdx?_eq_some_iff_getElem] at hk
      obtain ⟨hk, hb, -⟩ := hk
      rw [beq_iff_eq] at hb
      rw [List.getElem?_eq_getElem hk, hb]
  have e1 := aux h1
  rw [aux h2] at e1
  exact (Option.some.inj e1).symm

theorem setField_ok {b b' x : Nd V} {k : Nat} (h : setField b k x = .ok b') :
    b'.shape = b.shape ∧ (∀ idx, idx.getD 3 0 = k → b'.get idx = x.get (idx.take 3)) ∧
      ∀ idx, idx.getD 3 0 ≠ k → b'.get idx = b.get idx := by
  unfold setField at h
  split at h
  · cases h
  · split at h
    · cases h
      exact ⟨rfl, fun idx hi => if_pos hi, fun idx hi => if_neg hi⟩
    · cases h

theorem setFields_ok {names : List String} {s : List (Nat × Nat)} : ∀ (l : List (String × Nd V)) (b b' : Nd V),
    setFields names s l b = .ok b' → (l.map (·.1)).Nodup →
    b'.shape = b.shape ∧
    (∀ idx, (∀ e ∈ l, nameIndex names e.1 ≠ .ok (idx.getD 3 0)) → b'.get idx = b.get idx) ∧
    ∀ n a, (n, a) ∈ l → ∃ k c, nameIndex names n = .ok k ∧ cut a s = .ok c ∧
      ∀ idx, idx.getD 3 0 = k → b'.get idx = (squeeze c).get (idx.take 3)
  | [], b, b', h, _ => by cases h; exact ⟨rfl, fun _ _ => rfl, fun _ _ h => by cases h⟩
  | (n0, a0) :: l, b, b', h, hn => by
    simp only [setFields, bind, Except.bind] at h
    cases h1 : nameIndex names n0 with
    | error e => rw [h1] at h; cases h
    | ok k =>
      rw [h1] at h; simp only at h
      cases h2 : cut a0 s with
      | error e => rw [h2] at h; cases h
      | ok c =>
        rw [h2] at h; simp only at h
        cases h3 : setField b k (squeeze c) with
        | error e => rw [h3] at h; cases h
        | ok b1 =>
          rw [h3] at h; simp only at h
          rw [List.map_cons, List.nodup_cons] at hn
          obtain ⟨i1, i2, i3⟩ := setFields_ok l b1 b' h hn.2
          obtain ⟨j1, j2, j3⟩ := setField_ok h3
          refine ⟨i1.trans j1, fun idx hi => ?_, fun n a hm => ?_⟩
          · rw [i2 idx (fun e he => hi e (List.mem_cons_of_mem _ he)), j3 idx]
            intro he
            exact hi _ List.mem_cons_self (by rw [he]; exact h1)
          · rcases List.mem_cons.mp hm with hm | hm
            · cases hm
              refine ⟨k, c, h1, h2, fun idx hi => ?_⟩
              rw [i2 idx, j2 idx hi]
              intro e he hc
              rw [hi] at hc
              have := nameIndex_inj hc h1
              exact hn.1 (List.mem_map.mpr ⟨e, he, this⟩)
            · exact i3 n a hm

/-- C100: the same for 4-D data, whose fields the code under test sees by their names. -/
theorem C100_fields {z : V} {N : Count V} {t t' : Test}
    {f : Dict V → Except Err (Option (Dict V))} {inputs : Dict V} {out : List (String × Nd V)} {caller : Dict V}
    (h : compute z N t f inputs = .ok (t', out, caller))
    {d : String} {i j : Info} (hi : (d, i) ∈ t.dataVars) (hj : (d, j) ∈ t.outVars) (hf : Keeps f d)
    (hn : (t.dataVars.map (·.1)).Nodup) (hs : (t.dataVars.map fun e => e.2.serial e.1).Nodup)
    (ho : (t.outVars.map fun e => e.2.serial e.1).Nodup)
    {a : Nd V} (ha : dictGet inputs (i.serial d) = some (.arr a))
    (hdum : i.dummy = none) (hix : i.indexVariable = false) (hk : i.kaxis = none) (hkj : j.kaxis = none)
    (hnm : j.names4d = i.names4d) (hnd : (i.names4d.getD t.tracers).Nodup)
    {p0 p1 p2 nq s0 s1 s2 m0 m1 m2 : Nat} (hsh : a.shape = [p0, p1, p2, nq]) (hq : nq ≤ (i.names4d.getD t.tracers).length)
    (g0 : p0 ≠ 1) (g1 : p1 ≠ 1) (g2 : p2 ≠ 1) (gq : nq ≠ 1)
    (hst : startIndices t.grid a.shape (i.update inputs) = .ok [s0, s1, s2])
    (hm : t.maxshape = [m0, m1, m2]) (h0 : s0 + p0 ≤ m0) (h1 : s1 + p1 ≤ m1) (h2 : s2 + p2 ≤ m2)
    (hreg : ∀ D : Dict V, region t.grid (j.update D) =
      .ok [((s0 : Int), (s0 : Int) + p0 - 1), ((s1 : Int), (s1 : Int) + p1 - 1), ((s2 : Int), (s2 : Int) + p2 - 1)]) :
    ∃ b, dictGet out (j.serial d) = some b ∧ b.shape = a.shape ∧ ∀ idx, isIndex a.shape idx → b.get idx = a.get idx := by
  obtain ⟨a', x, b, m, vals, ha', hx, hg, htr, hb, hd⟩ := compute_ok h hi hj hf hn hs ho
  rw [ha] at ha'; cases ha'
  refine ⟨b, hd, ?_⟩
  have hma : moved a i = a := by simp only [moved, hk]
  rw [hma] at hx
  have hno : ∀ n ∈ a.shape, n ≠ 1 := by
    rw [hsh]; intro n hn
    simp only [List.mem_cons, List.not_mem_nil, or_false] at hn
    rcases hn with rfl | rfl | rfl | rfl <;> assumption
  have hsqs : (squeeze a).shape = [p0, p1, p2, nq] := by rw [squeeze_shape _ hno, hsh]
  have hcount : counted N.dec (i.update inputs) a = a := by
    show (if i.indexVariable then _ else a) = a
    rw [hix]; rfl
  have hus : useShape t.maxshape (i.update inputs).dummy ((i.update inputs).axis.getD 2) (squeeze a).shape.length
      (i.update inputs).fullShape = .ok ([m0, m1, m2], (i.update inputs).axis.getD 2) := by
    have : (i.update inputs).dummy = none := hdum
    simp [useShape, this, hasDummy, hsqs, hm]
  generalize hA : ({ shape := some [m0, m1, m2], origin := [s0, s1, s2], start := [s0, s1, s2],
                     dummy := (i.update inputs).dummy, axis := (i.update inputs).axis.getD 2 } : Args) = A
  have hnames : (i.update inputs).names4d.getD t.tracers = i.names4d.getD t.tracers := rfl
  have hx2 : ∃ r, makeStorageDict z (squeeze a) (i.names4d.getD t.tracers) A = .ok r ∧
      x = .dict (r.map fun e => (e.1, e.2.array)) := by
    simp only [makeInput, bind, Except.bind] at hx
    rw [hst] at hx
    simp only at hx
    rw [if_pos (by rw [hsh]; rfl), hcount, hnames] at hx
    simp only [storageDict, bind, Except.bind, hus, hA] at hx
    cases hr : makeStorageDict z (squeeze a) (i.names4d.getD t.tracers) A with
    | error e => rw [hr] at hx; cases hx
    | ok r => rw [hr] at hx; cases hx; exact ⟨r, rfl, rfl⟩
  obtain ⟨r, hr, rfl⟩ := hx2
  generalize hN4 : i.names4d.getD t.tracers = names at *
  have htake : (names.take nq).Nodup := hnd.sublist (List.take_sublist _ _)
  obtain ⟨r', hr', hfield⟩ := C98_dict z (squeeze a) names A p0 p1 p2 nq m0 m1 m2 s0 s1 s2 s0 s1 s2 hsqs g0 g1 g2
    (by rw [← hA]) (by rw [← hA]) (by rw [← hA]) h0 h1 h2 hq htake
  rw [hr] at hr'; cases hr'
  have hmap : (List.range nq).map (fun i => names.getD i "") = names.take nq := by
    apply List.ext_getElem
    · simp; omega
    · intro i h1 h2
      simp at h1 h2
      simp [show i < names.length by omega]
  have hkeys : r.map (·.1) = names.take nq := by
    unfold makeStorageDict at hr
    simp only [hsqs, bind, Except.bind] at hr
    have e3 : fromOpt Err.indexError [p0, p1, p2, nq][3]? = .ok nq := rfl
    rw [e3] at hr
    simp only at hr
    have := fold_keys (fun q => makeStorageData z
        (squeeze ⟨[p0, p1, p2, nq].eraseIdx 3, fun idx => (squeeze a).get (idx.take 3 ++ q :: idx.drop 3)⟩)
        { A with shape := some (A.shape.getD [p0, p1, p2, nq]), mask := none, maxDim := 3, readOnly := true }) names
      (List.range nq) [] r hr (by rw [List.map_nil, List.nil_append, hmap]; exact htake)
    rw [this, List.map_nil, List.nil_append, hmap]
  -- the result
  have hjix : (j.update vals).indexVariable = false ∨ (j.update vals).indexVariable = true := by
    cases (j.update vals).indexVariable <;> simp
  have hslice : ∀ s p : Nat, sliceOf ((s : Int), (s : Int) + p - 1) = .ok (s, s + p) := by
    intro s p
    have e1 : nat (s : Int) = .ok s := by simp [nat]
    have e2 : nat ((s : Int) + p - 1 + 1) = .ok (s + p) := by
      unfold nat
      rw [if_neg (by omega)]
      congr 1; omega
    simp only [sliceOf, e1, e2, bind, Except.bind]; rfl
  have hsize : ∀ s p : Nat, nat ((s : Int) + p - 1 - s + 1) = .ok p := by
    intro s p
    unfold nat
    rw [if_neg (by omega)]
    congr 1; omega
  have hkj' : (j.update vals).kaxis = none := hkj
  have hnmj : (j.update vals).names4d.getD m.tracers = names := by
    show j.names4d.getD m.tracers = names
    rw [hnm, htr, hN4]
  rcases hjix with hjx | hjx
  swap
  · simp only [output, hjx, if_true] at hb; cases hb
  simp only [output, hjx, Bool.false_eq_true, if_false, hkj'] at hb
  simp only [cutDict, bind, Except.bind] at hb
  rw [hg, hreg vals] at hb
  simp only [sliceDict, List.mapM_cons, List.mapM_nil, hslice, hsize, bind, Except.bind, pure, Except.pure, hnmj,
    List.take_succ_cons, List.take_zero, OfNat.ofNat_ne_one, if_false] at hb
  have hlen : (r.map fun e => (e.1, e.2.array)).length = nq := by
    have := congrArg List.length hkeys
    simp at this ⊢; omega
  rw [hlen] at hb
  cases hb2 : setFields names [(s0, s0 + p0), (s1, s1 + p1), (s2, s2 + p2)] (r.map fun e => (e.1, e.2.array))
      (zeros z ([p0, p1, p2] ++ [nq])) with
  | error e => rw [hb2] at hb; cases hb
  | ok b2 =>
    rw [hb2] at hb; cases hb
    have hkeys2 : (r.map fun e => (e.1, e.2.array)).map (·.1) = names.take nq := by
      rw [List.map_map, ← hkeys]; rfl
    obtain ⟨k1, -, k3⟩ := setFields_ok _ _ _ hb2 (by rw [hkeys2]; exact htake)
    refine ⟨by rw [k1, hsh]; rfl, fun idx hidx => ?_⟩
    rw [hsh] at hidx
    match idx, hidx with
    | [x, y, w, q], ⟨hx, hy, hw, hqq, _⟩ =>
      obtain ⟨mq, hmq, ms, -, -, mg⟩ := hfield q hqq
      have hmem : (names.getD q "", mq.array) ∈ r.map fun e => (e.1, e.2.array) :=
        List.mem_map.mpr ⟨_, Snap.dictGet_some_mem hmq, rfl⟩
      obtain ⟨k, c, hk', hc, hget⟩ := k3 _ _ hmem
      rw [nameIndex_getD hnd (by omega)] at hk'
      cases hk'
      rw [hget [x, y, w, q] rfl]
      obtain ⟨c', hc', cs, cg⟩ := cut_box ms h0 h1 h2
      rw [hc] at hc'; cases hc'
      have hnoc : ∀ n ∈ c.shape, n ≠ 1 := by
        rw [cs]; intro n hn
        simp only [List.mem_cons, List.not_mem_nil, or_false] at hn
        rcases hn with rfl | rfl | rfl <;> assumption
      show (squeeze c).get [x, y, w] = _
      rw [squeeze_get _ hnoc _ (by rw [cs]; rfl), cg, mg _ _ _ (by omega) (by omega) (by omega),
        placed_box (by simp [field, hsqs]) hx hy hw]
      show (squeeze a).get [x, y, w, q] = _
      rw [squeeze_get _ hno _ (by rw [hsh]; rfl)]

/-! ### indices -/

/-- C100: local and global indices are inverse to each other. -/
theorem C100_inverse (i sub width : Int) :
    localToGlobal (globalToLocal i sub width) sub width = i ∧ globalToLocal (localToGlobal i sub width) sub width = i := by
  unfold localToGlobal globalToLocal
  constructor <;> omega

theorem width_eq {L nx : Int} (hL : 0 < L) : (L * nx + 1 - 1) / L = nx := by
  rw [show L * nx + 1 - 1 = L * nx by omega]
  exact Int.mul_ediv_cancel_left nx (by omega)

/-- C100: on a square layout of ranks with the same number of cells, a rank has the cells of its row and column, and
it is at the edges of the tile at which the partitioner has it. -/
theorem C100_grid {L nx ny npz rank : Int} (hL : 0 < L) (hx : 0 < nx) (hy : 0 < ny) :
    let g := Grid.make (L * nx + 1) (L * ny + 1) npz (L, L) rank
    let s := subtileIndex rank (L * L) (L, L)
    g.nic = nx ∧ g.njc = ny ∧ g.nid = nx + 6 ∧ g.njd = ny + 6 ∧
    g.globalI g.is_ = 3 + s.2 * nx ∧ g.globalI g.ie = 3 + (s.2 + 1) * nx - 1 ∧
    g.globalJ g.js = 3 + s.1 * ny ∧ g.globalJ g.je = 3 + (s.1 + 1) * ny - 1 ∧
    g.west = onTileLeft s ∧ g.east = onTileRight s (L, L) ∧ g.south = onTileBottom s ∧ g.north = onTileTop s (L, L) := by
  intro g s
  have hg : g = ⟨L * nx + 1, L * ny + 1, npz, s, nx, ny, 3, nx + 3 - 1, 0, nx + 2 * 3 - 1, 3, ny + 3 - 1, 0,
      ny + 2 * 3 - 1⟩ := by
    simp only [g, Grid.make, Grid.init, width_eq hL, halo, if_true]; rfl
  have low : ∀ c n : Int, 0 < n → ((3 + c * n == 3) = (c == 0)) := by
    intro c n hn
    rw [Bool.eq_iff_iff, beq_iff_eq, beq_iff_eq]
    constructor
    · intro h
      have : c * n = 0 := by omega
      rcases Int.mul_eq_zero.mp this with h | h <;> omega
    · rintro rfl; simp
  have high : ∀ c n : Int, 0 < n → ((n + 3 - 1 + c * n == L * n + 1 + 3 - 2) = (c == L - 1)) := by
    intro c n hn
    rw [Bool.eq_iff_iff, beq_iff_eq, beq_iff_eq]
    constructor
    · intro h
      have h1 : (c + 1) * n = L * n := by
        rw [Int.add_mul, Int.one_mul]; omega
      have := Int.eq_of_mul_eq_mul_right (by omega) h1
      omega
    · rintro rfl; rw [Int.sub_mul, Int.one_mul]; omega
  rw [hg]
  refine ⟨?_, ?_, ?_, ?_, ?_, ?_, ?_, ?_, ?_, ?_, ?_, ?_⟩
  · simp only [Grid.nic]; omega
  · simp only [Grid.njc]; omega
  · simp only [Grid.nid]; omega
  · simp only [Grid.njd]; omega
  · rfl
  · simp only [Grid.globalI, localToGlobal, Int.add_mul, Int.one_mul]; omega
  · rfl
  · simp only [Grid.globalJ, localToGlobal, Int.add_mul, Int.one_mul]; omega
  · exact low s.2 nx hx
  · exact high s.2 nx hx
  · exact low s.1 ny hy
  · exact high s.1 ny hy

/-- C100: then every cell of the tile is of exactly one rank. -/
theorem C100_cover {L nx ny npz i j : Int} (hL : 0 < L) (hx : 0 < nx) (hy : 0 < ny) (hi : 3 ≤ i ∧ i < 3 + L * nx)
    (hj : 3 ≤ j ∧ j < 3 + L * ny) :
    ∃ r, ∀ rank, 0 ≤ rank ∧ rank < L * L ∧
        (let g := Grid.make (L * nx + 1) (L * ny + 1) npz (L, L) rank
         g.globalI g.is_ ≤ i ∧ i ≤ g.globalI g.ie ∧ g.globalJ g.js ≤ j ∧ j ≤ g.globalJ g.je) ↔ rank = r := by
  have key : ∀ {c n x : Int}, 0 < n → (3 + c * n ≤ x ∧ x ≤ 3 + (c + 1) * n - 1 ↔ c = (x - 3) / n) := by
    intro c n x hn
    have e1 := Int.ediv_mul_add_emod (x - 3) n
    have e2 := Int.emod_nonneg (x - 3) (show n ≠ 0 by omega)
    have e3 := Int.emod_lt_of_pos (x - 3) hn
    constructor
    · rintro ⟨h1, h2⟩
      rw [Int.add_mul, Int.one_mul] at h2
      refine Int.le_antisymm ?_ ?_
      · exact (Int.le_ediv_iff_mul_le hn).mpr (by omega)
      · exact Int.lt_add_one_iff.mp ((Int.ediv_lt_iff_lt_mul hn).mpr (by rw [Int.add_mul, Int.one_mul]; omega))
    · rintro rfl
      rw [Int.add_mul, Int.one_mul]; omega
  have hc0 : 0 ≤ (i - 3) / nx := Int.ediv_nonneg (by omega) (by omega)
  have hc1 : (i - 3) / nx < L := (Int.ediv_lt_iff_lt_mul hx).mpr (by omega)
  have hr0 : 0 ≤ (j - 3) / ny := Int.ediv_nonneg (by omega) (by omega)
  have hr1 : (j - 3) / ny < L := (Int.ediv_lt_iff_lt_mul hy).mpr (by omega)
  refine ⟨(j - 3) / ny * L + (i - 3) / nx, fun rank => ?_⟩
  obtain ⟨-, -, -, -, e1, e2, e3, e4, -⟩ := C100_grid (npz := npz) (rank := rank) hL hx hy
  simp only at e1 e2 e3 e4 ⊢
  rw [e1, e2, e3, e4]
  generalize hC : (i - 3) / nx = C at *
  generalize hR : (j - 3) / ny = R at *
  constructor
  · rintro ⟨h0, h1, h2, h3, h4, h5⟩
    have hc := (key hx).mp ⟨h2, h3⟩
    have hr := (key hy).mp ⟨h4, h5⟩
    rw [hC] at hc; rw [hR] at hr
    simp only [subtileIndex, Int.emod_eq_of_lt h0 h1] at hc hr
    have := Int.ediv_mul_add_emod rank L
    rw [hr, hc] at this
    exact this.symm
  · intro h
    have hLL : R * L + L ≤ L * L := by
      have := Int.mul_le_mul_of_nonneg_right (show R + 1 ≤ L by omega) (show 0 ≤ L by omega)
      rw [Int.add_mul, Int.one_mul] at this; exact this
    have hRL : 0 ≤ R * L := Int.mul_nonneg hr0 (by omega)
    have h0 : 0 ≤ rank := by omega
    have h1 : rank < L * L := by omega
    have hs : subtileIndex rank (L * L) (L, L) = (R, C) := by
      simp only [subtileIndex, Int.emod_eq_of_lt h0 h1]
      rw [h]
      congr 1
      · rw [Int.add_comm, Int.add_mul_ediv_right _ _ (by omega), Int.ediv_eq_zero_of_lt hc0 hc1, Int.zero_add]
      · rw [Int.add_comm, Int.add_mul_emod_self_right, Int.emod_eq_of_lt hc0 hc1]
    rw [hs]
    have a1 := (key (c := C) (x := i) hx).mpr hC.symm
    have a2 := (key (c := R) (x := j) hy).mpr hR.symm
    exact ⟨h0, h1, a1.1, a1.2, a2.1, a2.2⟩

/-- C100: the indices of the reference data, with Fortran's cells counted over the tile from one, give the same grid. -/
theorem C100_translated {L nx ny npz rank : Int} (hL : 0 < L) :
    let s := subtileIndex rank (L * L) (L, L)
    Grid.translated ⟨s.2 * nx + 1, (s.2 + 1) * nx, s.2 * nx + 1 - 3, (s.2 + 1) * nx + 3,
        s.1 * ny + 1, (s.1 + 1) * ny, s.1 * ny + 1 - 3, (s.1 + 1) * ny + 3⟩ (L * nx + 1) (L * ny + 1) npz rank (L, L) =
      Grid.make (L * nx + 1) (L * ny + 1) npz (L, L) rank := by
  intro s
  simp only [Grid.translated, Grid.make, Grid.init, width_eq hL, globalToLocal, halo, if_true, Bool.false_eq_true, if_false]
  have e : subtileIndex rank (L * L) (L, L) = s := rfl
  rw [e]
  simp only [Int.add_mul, Int.one_mul]
  congr 1 <;> omega

/-! ### the usual descriptions -/

theorem grid_make {L nx ny npz rank : Int} (hL : 0 < L) :
    Grid.make (L * nx + 1) (L * ny + 1) npz (L, L) rank =
      ⟨L * nx + 1, L * ny + 1, npz, subtileIndex rank (L * L) (L, L), nx, ny, 3, nx + 3 - 1, 0, nx + 2 * 3 - 1, 3,
        ny + 3 - 1, 0, ny + 2 * 3 - 1⟩ := by
  simp only [Grid.make, Grid.init, width_eq hL, halo, if_true]

theorem nat_eq (n : Nat) : nat (n : Int) = .ok n := by simp [nat]

/-- C100: data on the cells or interfaces of a rank, described by nothing, comes back as it was when its result is
described by the indices of its cells. -/
theorem C100_compute_domain {z : V} {N : Count V} {t t' : Test} {f : Dict V → Except Err (Option (Dict V))}
    {inputs : Dict V} {out : List (String × Nd V)} {caller : Dict V}
    (h : compute z N t f inputs = .ok (t', out, caller))
    {d : String} {L rank : Int} {nx ny npz ex ey nz : Nat} (hL : 0 < L) (hx : 1 < nx) (hy : 1 < ny) (hex : ex ≤ 1)
    (hey : ey ≤ 1) (hnz : nz ≠ 1) {aligned : Bool} (hz : nz ≤ npz + if aligned then 0 else 1)
    (hgrid : t.grid = Grid.make (L * nx + 1) (L * ny + 1) npz (L, L) rank) (hmax : t.maxshape = maxshapeOf t.grid aligned)
    (hi : (d, ({} : Info)) ∈ t.dataVars)
    (hj : (d, ({ istart := some (.num 3), iend := some (.num (nx + ex + 2)), jstart := some (.num 3),
                 jend := some (.num (ny + ey + 2)), kend := some (.num (nz - 1)) } : Info)) ∈ t.outVars)
    (hf : Keeps f d) (hn : (t.dataVars.map (·.1)).Nodup) (hs : (t.dataVars.map fun e => e.2.serial e.1).Nodup)
    (ho : (t.outVars.map fun e => e.2.serial e.1).Nodup)
    {a : Nd V} (ha : dictGet inputs d = some (.arr a)) (hsh : a.shape = [nx + ex, ny + ey, nz]) :
    ∃ b, dictGet out d = some b ∧ b.shape = a.shape ∧ ∀ idx, isIndex a.shape idx → b.get idx = a.get idx := by
  have hmx : ∃ m2, t.maxshape = [nx + 6 + (if aligned then 0 else 1), ny + 6 + (if aligned then 0 else 1), m2] ∧
      nz ≤ m2 := by
    rw [hmax, hgrid, grid_make hL]
    cases aligned
    · refine ⟨npz + 1, ?_, by simpa using hz⟩
      simp only [maxshapeOf, Grid.nid, Grid.njd, Bool.false_eq_true, if_false, List.cons.injEq, and_true]
      omega
    · refine ⟨npz, ?_, by simpa using hz⟩
      simp only [maxshapeOf, Grid.nid, Grid.njd, if_true, List.cons.injEq, and_true]
      omega
  obtain ⟨m2, hm, h2⟩ := hmx
  have hstart : t.grid.starts [nx + ex, ny + ey, nz] = (3, 3) := by
    have e1 : t.grid.nic = nx := by rw [hgrid, grid_make hL]; simp only [Grid.nic]; omega
    have e2 : t.grid.njc = ny := by rw [hgrid, grid_make hL]; simp only [Grid.njc]; omega
    have e3 : t.grid.is_ = 3 := by rw [hgrid, grid_make hL]
    have e4 : t.grid.js = 3 := by rw [hgrid, grid_make hL]
    simp only [Grid.starts, e1, e2, e3, e4, List.take_succ_cons, List.take_zero, List.map_cons, List.map_nil]
    rw [if_pos]
    have a1 : ex = 0 ∨ ex = 1 := by omega
    have a2 : ey = 0 ∨ ey = 1 := by omega
    rcases a1 with rfl | rfl <;> rcases a2 with rfl | rfl <;> simp
  refine C100_round_trip (i := {}) (p0 := nx + ex) (p1 := ny + ey) (p2 := nz) (s0 := 3) (s1 := 3) (s2 := 0) h hi hj hf
    hn hs ho ha (by rw [hsh]; rfl) rfl rfl (fun h => by cases h) rfl (fun k h => by cases h) hsh (by omega) (by omega) hnz ?_ hm
    (by omega) (by omega) (by omega) ?_
  · have : (Info.update inputs ({} : Info)) = {} := rfl
    rw [this]
    simp only [startIndices, hstart, ixOr, bind, Except.bind]
    rfl
  · intro D
    simp only [region, Info.update, Option.map, Ix.update, ixOr, Ix.int, bind, Except.bind]
    refine congrArg Except.ok ?_
    simp only [List.cons.injEq, Prod.mk.injEq, and_true]
    omega

/-- C100: data on all points of a rank, halo included, comes back as it was with no description at all. -/
theorem C100_full_domain {z : V} {N : Count V} {t t' : Test} {f : Dict V → Except Err (Option (Dict V))}
    {inputs : Dict V} {out : List (String × Nd V)} {caller : Dict V}
    (h : compute z N t f inputs = .ok (t', out, caller))
    {d : String} {L rank : Int} {nx ny npz : Nat} (hL : 0 < L) (hnz : npz ≠ 1) {aligned : Bool}
    (hgrid : t.grid = Grid.make (L * nx + 1) (L * ny + 1) npz (L, L) rank) (hmax : t.maxshape = maxshapeOf t.grid aligned)
    (hi : (d, ({} : Info)) ∈ t.dataVars) (hj : (d, ({} : Info)) ∈ t.outVars)
    (hf : Keeps f d) (hn : (t.dataVars.map (·.1)).Nodup) (hs : (t.dataVars.map fun e => e.2.serial e.1).Nodup)
    (ho : (t.outVars.map fun e => e.2.serial e.1).Nodup)
    {a : Nd V} (ha : dictGet inputs d = some (.arr a)) (hsh : a.shape = [nx + 6, ny + 6, npz]) :
    ∃ b, dictGet out d = some b ∧ b.shape = a.shape ∧ ∀ idx, isIndex a.shape idx → b.get idx = a.get idx := by
  have hmx : ∃ m2, t.maxshape = [nx + 6 + (if aligned then 0 else 1), ny + 6 + (if aligned then 0 else 1), m2] ∧
      npz ≤ m2 := by
    rw [hmax, hgrid, grid_make hL]
    cases aligned
    · refine ⟨npz + 1, ?_, by omega⟩
      simp only [maxshapeOf, Grid.nid, Grid.njd, Bool.false_eq_true, if_false, List.cons.injEq, and_true]
      omega
    · refine ⟨npz, ?_, by omega⟩
      simp only [maxshapeOf, Grid.nid, Grid.njd, if_true, List.cons.injEq, and_true]
      omega
  obtain ⟨m2, hm, h2⟩ := hmx
  have hstart : t.grid.starts [nx + 6, ny + 6, npz] = (0, 0) := by
    have e1 : t.grid.nic = nx := by rw [hgrid, grid_make hL]; simp only [Grid.nic]; omega
    have e2 : t.grid.njc = ny := by rw [hgrid, grid_make hL]; simp only [Grid.njc]; omega
    simp only [Grid.starts, e1, e2, List.take_succ_cons, List.take_zero, List.map_cons, List.map_nil]
    rw [if_neg, if_neg]
    · simp only [List.cons.injEq, and_true]; omega
    · simp only [List.cons.injEq, and_true]; omega
  refine C100_round_trip (i := {}) (j := {}) (p0 := nx + 6) (p1 := ny + 6) (p2 := npz) (s0 := 0) (s1 := 0) (s2 := 0) h hi
    hj hf hn hs ho ha (by rw [hsh]; rfl) rfl rfl (fun h => by cases h) rfl (fun k h => by cases h) hsh (by omega) (by omega)
    hnz ?_ hm (by omega) (by omega) (by omega) ?_
  · have : (Info.update inputs ({} : Info)) = {} := rfl
    rw [this]
    simp only [startIndices, hstart, ixOr, bind, Except.bind]
    rfl
  · intro D
    have : (Info.update D ({} : Info)) = {} := rfl
    rw [this, hgrid, grid_make hL]
    simp only [region, ixOr, bind, Except.bind]
    refine congrArg Except.ok ?_
    simp only [List.cons.injEq, Prod.mk.injEq, and_true]
    omega

/-- C100: data whose place is described by starts and ends comes back as it was, whatever they are. -/
theorem C100_given {z : V} {N : Count V} {t t' : Test} {f : Dict V → Except Err (Option (Dict V))}
    {inputs : Dict V} {out : List (String × Nd V)} {caller : Dict V}
    (h : compute z N t f inputs = .ok (t', out, caller))
    {d : String} {s0 s1 s2 p0 p1 p2 m0 m1 m2 : Nat} (g0 : p0 ≠ 1) (g1 : p1 ≠ 1) (g2 : p2 ≠ 1)
    (hm : t.maxshape = [m0, m1, m2]) (h0 : s0 + p0 ≤ m0) (h1 : s1 + p1 ≤ m1) (h2 : s2 + p2 ≤ m2)
    (hi : (d, ({ istart := some (.num s0), jstart := some (.num s1), kstart := some (.num s2) } : Info)) ∈ t.dataVars)
    (hj : (d, ({ istart := some (.num s0), iend := some (.num (s0 + p0 - 1)), jstart := some (.num s1),
                 jend := some (.num (s1 + p1 - 1)), kstart := some (.num s2), kend := some (.num (s2 + p2 - 1)) } : Info))
      ∈ t.outVars)
    (hf : Keeps f d) (hn : (t.dataVars.map (·.1)).Nodup) (hs : (t.dataVars.map fun e => e.2.serial e.1).Nodup)
    (ho : (t.outVars.map fun e => e.2.serial e.1).Nodup)
    {a : Nd V} (ha : dictGet inputs d = some (.arr a)) (hsh : a.shape = [p0, p1, p2]) :
    ∃ b, dictGet out d = some b ∧ b.shape = a.shape ∧ ∀ idx, isIndex a.shape idx → b.get idx = a.get idx := by
  refine C100_round_trip (p0 := p0) (p1 := p1) (p2 := p2) (s0 := s0) (s1 := s1) (s2 := s2) h hi hj hf
    hn hs ho ha (by rw [hsh]; rfl) rfl rfl (fun h => by cases h) rfl (fun k h => by cases h) hsh g0 g1 g2 ?_ hm h0 h1 h2 ?_
  · simp only [startIndices, Info.update, Option.map, Ix.update, ixOr, Ix.int, nat_eq, bind, Except.bind]
    rfl
  · intro D
    simp only [region, Info.update, Option.map, Ix.update, ixOr, Ix.int, bind, Except.bind]
    rfl

/-- C100: what the code under test sees of data on the cells or interfaces: they are at its cells, and zero elsewhere. -/
theorem C100_input {z : V} {N : Count V} {t : Test} {inputs : Dict V} {r : Test × Dict V × Dict V}
    (h : makeInputs z N t inputs = .ok r)
    {d : String} {L rank : Int} {nx ny npz ex ey nz : Nat} (hL : 0 < L) (hx : 1 < nx) (hy : 1 < ny) (hex : ex ≤ 1)
    (hey : ey ≤ 1) (hnz : nz ≠ 1) (hz : nz ≤ npz)
    (hgrid : t.grid = Grid.make (L * nx + 1) (L * ny + 1) npz (L, L) rank) (hmax : t.maxshape = maxshapeOf t.grid true)
    (hi : (d, ({} : Info)) ∈ t.dataVars) (hn : (t.dataVars.map (·.1)).Nodup)
    (hs : (t.dataVars.map fun e => e.2.serial e.1).Nodup)
    {a : Nd V} (ha : dictGet inputs d = some (.arr a)) (hsh : a.shape = [nx + ex, ny + ey, nz]) :
    ∃ b, dictGet r.2.1 d = some (.arr b) ∧ b.shape = [nx + 6, ny + 6, npz] ∧
      ∀ i j k, i < nx + 6 → j < ny + 6 → k < npz → b.get [i, j, k] =
        if 3 ≤ i ∧ i < nx + ex + 3 ∧ 3 ≤ j ∧ j < ny + ey + 3 ∧ k < nz then a.get [i - 3, j - 3, k] else z := by
  have hm : t.maxshape = [nx + 6, ny + 6, npz] := by
    rw [hmax, hgrid, grid_make hL]
    simp only [maxshapeOf, Grid.nid, Grid.njd, if_true, List.cons.injEq, and_true]
    omega
  have hstart : t.grid.starts [nx + ex, ny + ey, nz] = (3, 3) := by
    have e1 : t.grid.nic = nx := by rw [hgrid, grid_make hL]; simp only [Grid.nic]; omega
    have e2 : t.grid.njc = ny := by rw [hgrid, grid_make hL]; simp only [Grid.njc]; omega
    have e3 : t.grid.is_ = 3 := by rw [hgrid, grid_make hL]
    have e4 : t.grid.js = 3 := by rw [hgrid, grid_make hL]
    simp only [Grid.starts, e1, e2, e3, e4, List.take_succ_cons, List.take_zero, List.map_cons, List.map_nil]
    rw [if_pos]
    have a1 : ex = 0 ∨ ex = 1 := by omega
    have a2 : ey = 0 ∨ ey = 1 := by omega
    rcases a1 with rfl | rfl <;> rcases a2 with rfl | rfl <;> simp
  obtain ⟨-, -, -, hk⟩ := makeInputs_ok h hn hs
  obtain ⟨a', x, ha', hx', hr⟩ := hk d {} hi
  have ha'' : dictGet inputs d = some (.arr a') := ha'
  rw [ha] at ha''; cases ha''
  obtain ⟨b, rfl, hbs, hbg⟩ := makeInput_ok (i := Info.update inputs {}) hx' hsh (by omega) (by omega) hnz rfl
    (s0 := 3) (s1 := 3) (s2 := 0) (by
      have : (Info.update inputs ({} : Info)) = {} := rfl
      rw [this]
      simp only [startIndices, hstart, ixOr, bind, Except.bind]
      rfl) hm (by omega) (by omega) (by omega)
  refine ⟨b, hr, hbs, fun i j k hi hj hk => ?_⟩
  rw [hbg [i, j, k] ⟨hi, hj, hk, trivial⟩]
  have hc : counted N.dec (Info.update inputs ({} : Info)) (moved a {}) = a := rfl
  rw [hc, placed, hsh]
  by_cases hcond : 3 ≤ i ∧ i < nx + ex + 3 ∧ 3 ≤ j ∧ j < ny + ey + 3 ∧ k < nz
  · rw [if_pos hcond, if_pos]
    · rfl
    · simp only [inBox, Bool.and_eq_true, decide_eq_true_eq, and_true]
      omega
  · rw [if_neg hcond, if_neg]
    simp only [inBox, Bool.and_eq_true, decide_eq_true_eq, and_true]
    omega

/-! ### examples and what does not hold -/

/-- The numbers of the examples; arrays whose entries tell their indices. -/
def intCount : Count Int := ⟨fun v => v - 1, fun v => v + 1⟩
def arrI (shape : List Nat) : Nd Int := ⟨shape, fun idx => (arrOf shape).get idx⟩
def grid4 (npz : Int) : Grid := Grid.make 5 5 npz (1, 1) 0
def test4 (npz : Int) (ins outs : List (String × Info)) : Test :=
  ⟨grid4 npz, ins, [], [], outs, ["a", "b"], maxshapeOf (grid4 npz) true⟩
def cells (ex ey nz : Int) : Info :=
  { istart := some (.num 3), iend := some (.num (4 + ex + 2)), jstart := some (.num 3), jend := some (.num (4 + ey + 2)),
    kend := some (.num (nz - 1)) }
def nothing (_ : Dict Int) : Except Err (Option (Dict Int)) := .ok none

/-- Values of a result. -/
def got (r : Except Err (Test × List (String × Nd Int) × Dict Int)) (n : String) (l : List (List Nat)) :
    List Nat × List Int :=
  match r with
  | .ok (_, out, _) => match dictGet out n with | some b => (b.shape, l.map b.get) | none => ([], [])
  | .error _ => ([], [])
/-- Values of an array among inputs. -/
def given (r : Dict Int) (n : String) (l : List (List Nat)) : List Nat × List Int :=
  match dictGet r n with
  | some (.arr b) => (b.shape, l.map b.get)
  | _ => ([], [])
def seen (r : Except Err (Test × Dict Int × Dict Int)) (n : String) (l : List (List Nat)) : List Nat × List Int :=
  match r with
  | .ok (_, d, _) => given d n l
  | .error _ => ([], [])

/-- Cells, interfaces in x, all points, 4-D data, a moved axis with indices: each meets the hypotheses, and comes back. -/
example :
    got (compute 0 intCount (test4 2 [("u", {}), ("v", {})] [("u", cells 0 0 2), ("v", cells 1 0 2)]) nothing
      [("u", .arr (arrI [4, 4, 2])), ("v", .arr (arrI [5, 4, 2]))]) "v" [[0, 0, 0], [4, 3, 1]] = ([5, 4, 2], [111, 542]) ∧
    got (compute 0 intCount (test4 2 [("u", {})] [("u", {})]) nothing [("u", .arr (arrI [10, 10, 2]))]) "u"
      [[0, 0, 0], [8, 7, 1]] = ([10, 10, 2], [111, 982]) ∧
    got (compute 0 intCount (test4 2 [("q", {})] [("q", cells 0 0 2)]) nothing [("q", .arr (arrI [4, 4, 2, 2]))]) "q"
      [[0, 0, 0, 1], [3, 2, 1, 0]] = ([4, 4, 2, 2], [1112, 4321]) ∧
    got (compute 0 intCount (test4 2 [("n", { kaxis := some 1, indexVariable := true })]
        [("n", { cells 0 0 2 with kaxis := some 1, indexVariable := true })]) nothing [("n", .arr (arrI [4, 2, 4]))]) "n"
      [[0, 0, 0], [3, 1, 2]] = ([4, 2, 4], [111, 423]) := by
  decide +kernel

/-- Starts and ends that are not those of cells. -/
example :
    got (compute 0 intCount (test4 2 [("u", { istart := some (.num 2), jstart := some (.num 5), kstart := some (.num 0) })]
        [("u", { istart := some (.num 2), iend := some (.num 3), jstart := some (.num 5), jend := some (.num 8),
                 kstart := some (.num 0), kend := some (.num 1) })]) nothing [("u", .arr (arrI [2, 4, 2]))]) "u"
      [[0, 0, 0], [1, 3, 1]] = ([2, 4, 2], [111, 242]) := by
  decide +kernel

/-- A rank of a layout of 2 × 2. -/
example : let g := Grid.make 9 9 2 (2, 2) 1
    (g.west, g.east, g.south, g.north, g.globalI g.is_, g.nic) = (false, true, true, false, 7, 4) := by decide +kernel

/-- C100: a plane with a dummy axis becomes an array of the wanted shape with one point along that axis. -/
theorem C100_dummy (z : V) (a : Nd V) (i : Info) (p q m0 m1 m2 s0 s1 s2 x k0 k1 : Nat) (ha : a.shape = [p, q])
    (hi : i.dummy = some [x]) (hx : x < 3) (hm : [m0, m1, m2].eraseIdx x = [k0, k1]) (hp : s0 + p ≤ k0) (hq : s1 + q ≤ k1) :
    ∃ r, storageData z [m0, m1, m2] a [s0, s1, s2] i true = .ok r ∧ r.shape = [m0, m1, m2].set x 1 ∧
      ∀ idx, isIndex ([m0, m1, m2].set x 1) idx → r.get idx = placed z a [s0, s1] (idx.eraseIdx x) := by
  have hc : x = 0 ∨ x = 1 ∨ x = 2 := by omega
  rcases hc with rfl | rfl | rfl
  all_goals
    simp only [List.eraseIdx, List.cons.injEq, and_true] at hm
    obtain ⟨rfl, rfl⟩ := hm
  · obtain ⟨m, h1, h2, h3, -⟩ := C98_plane_dummy z a
      { shape := some [1, m1, m2], origin := [s0, s1, s2], start := [s0, s1, s2], dummy := i.dummy, axis := 0, readOnly := true }
      p q 1 m1 m2 s0 s1 s2 s0 s1 s2 0 m1 m2 ha ⟨rfl, rfl, rfl, rfl, rfl⟩ rfl (.inl ⟨[], hi⟩) rfl rfl hp hq
    refine ⟨m.array, ?_, h2, fun idx h => ?_⟩
    · simp [storageData, useShape, hi, hasDummy, setOnes, ha, bind, Except.bind, pure, Except.pure] at h1 ⊢
      rw [h1]
    · match idx, h with
      | [a, b, c], ⟨x1, x2, x3, _⟩ => exact h3 a b c x1 x2 x3
  · obtain ⟨m, h1, h2, h3, -⟩ := C98_plane_dummy z a
      { shape := some [m0, 1, m2], origin := [s0, s1, s2], start := [s0, s1, s2], dummy := i.dummy, axis := 1, readOnly := true }
      p q m0 1 m2 s0 s1 s2 s0 s1 s2 1 m0 m2 ha ⟨rfl, rfl, rfl, rfl, rfl⟩ rfl (.inl ⟨[], hi⟩) rfl rfl hp hq
    refine ⟨m.array, ?_, h2, fun idx h => ?_⟩
    · simp [storageData, useShape, hi, hasDummy, setOnes, ha, bind, Except.bind, pure, Except.pure] at h1 ⊢
      rw [h1]
    · match idx, h with
      | [a, b, c], ⟨x1, x2, x3, _⟩ => exact h3 a b c x1 x2 x3
  · obtain ⟨m, h1, h2, h3, -⟩ := C98_plane_dummy z a
      { shape := some [m0, m1, 1], origin := [s0, s1, s2], start := [s0, s1, s2], dummy := i.dummy, axis := 2, readOnly := true }
      p q m0 m1 1 s0 s1 s2 s0 s1 s2 2 m0 m1 ha ⟨rfl, rfl, rfl, rfl, rfl⟩ rfl (.inl ⟨[], hi⟩) rfl rfl hp hq
    refine ⟨m.array, ?_, h2, fun idx h => ?_⟩
    · simp [storageData, useShape, hi, hasDummy, setOnes, ha, bind, Except.bind, pure, Except.pure] at h1 ⊢
      rw [h1]
    · match idx, h with
      | [a, b, c], ⟨x1, x2, x3, _⟩ => exact h3 a b c x1 x2 x3

/-- A vertical plane of four columns by two levels, with the second axis a dummy. -/
example : seen (makeInputs 0 intCount (test4 2 [("p", { dummy := some [1] })] []) [("p", .arr (arrI [10, 2]))]) "p"
    [[0, 0, 0], [3, 0, 1]] = ([10, 1, 2], [11, 42]) := by decide +kernel

/-- C100, what does not hold: a line with two dummy axes is refused, because the last of them is taken for its own axis. -/
theorem C100_dummy_line_violated :
    (makeInputs 0 intCount (test4 4 [("p", { dummy := some [0, 1] })] []) [("p", .arr (arrI [4]))]) matches .error .valueError := by
  decide +kernel

/-- C100, what does not hold: the widths are taken from the other entry of the layout. On a layout of one row and two
columns the first rank is said to have the eight cells of the tile and to be at its right edge; the second is outside. -/
theorem C100_layout_violated :
    let g := Grid.make 9 9 2 (1, 2)
    ((g 0).nic, (g 0).njc, (g 0).east, onTileRight (subtileIndex 0 2 (1, 2)) (1, 2)) = (8, 4, true, false) ∧
    ((g 1).globalI (g 1).is_, (g 1).east, onTileRight (subtileIndex 1 2 (1, 2)) (1, 2)) = (11, false, true) := by
  decide +kernel

/-- C100, what does not hold: seven cells on two columns leave a cell with no rank, and no rank at the right edge. -/
theorem C100_uneven_violated :
    ∀ rank ∈ [0, 1, 2, 3], let g := Grid.make 8 8 2 (2, 2) rank
      g.east = false ∧ g.north = false ∧ ¬ (g.globalI g.is_ ≤ 9 ∧ 9 ≤ g.globalI g.ie) := by
  decide +kernel

def byName : Test := test4 3 [("v", { kstart := some (.name "k0") })] []
def withStart (k : Int) : Dict Int := [("k0", .num k), ("v", .arr (arrI [4, 4, 2]))]
/-- C100, what does not hold: a test is changed by its data. The start of a variable which is given by the name of an
input is that of the first data in all later runs. -/
theorem C100_stale_violated :
    seen (makeInputs 0 intCount byName (withStart 0)) "v" [[3, 3, 0], [3, 3, 1]] = ([10, 10, 3], [111, 112]) ∧
    (match makeInputs 0 intCount byName (withStart 1) with
      | .ok (t, _, _) => seen (makeInputs 0 intCount t (withStart 0)) "v" [[3, 3, 0], [3, 3, 1]]
      | .error _ => ([], [])) = ([10, 10, 3], [0, 111]) := by
  decide +kernel

def indexed : Test := test4 2 [("n", { indexVariable := true })] []
/-- C100, what does not hold: the arrays of the caller are changed. Indices are counted from zero in place, so the same
data is off by one in a second run. -/
theorem C100_caller_violated :
    (match makeInputs 0 intCount indexed [("n", .arr (arrI [4, 4, 2]))] with
      | .ok (t, d, c) => (given d "n" [[3, 3, 0]], given c "n" [[0, 0, 0]], seen (makeInputs 0 intCount t c) "n" [[3, 3, 0]])
      | .error _ => (([], []), ([], []), ([], []))) =
      (([10, 10, 2], [110]), ([4, 4, 2], [110]), ([10, 10, 2], [109])) := by
  decide +kernel

/-- C100, what does not hold: two variables made from one array of the reference data, with the vertical axis to be
moved, have it moved twice. -/
theorem C100_shared_violated :
    seen (makeInputs 0 intCount (test4 2 [("a", { serialname := some "s", kaxis := some 0 })] [])
      [("s", .arr (arrI [2, 4, 4]))]) "a" [[3, 4, 1]] = ([10, 10, 2], [212]) ∧
    (makeInputs 0 intCount (test4 2 [("a", { serialname := some "s", kaxis := some 0 }),
        ("b", { serialname := some "s", kaxis := some 0 })] []) [("s", .arr (arrI [2, 4, 4]))]) matches .error .valueError := by
  decide +kernel

/-- C100, what does not hold: the start of a vertical plane of cells is not found from its shape. It is put at the
first point of the halo, or, with as many levels as rows, refused. -/
theorem C100_plane_violated :
    seen (makeInputs 0 intCount (test4 7 [("p", { axis := some 1 })] []) [("p", .arr (arrI [4, 7]))]) "p"
      [[0, 0, 0], [3, 0, 0]] = ([10, 1, 7], [11, 41]) ∧
    (makeInputs 0 intCount (test4 4 [("p", { axis := some 1 })] []) [("p", .arr (arrI [4, 4]))])
      matches .error .valueError := by
  decide +kernel

end NDSL.Translate
