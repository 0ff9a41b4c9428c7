import Verif.Model.PlotPrep
import Verif.Props.Masking
import Mathlib.Data.Rat.Floor
import Mathlib.Data.List.Nodup
import Mathlib.Data.List.GetD
import Mathlib.Tactic.Linarith
import Mathlib.Tactic.NormNum
/-
C125: what is plotted is the data.
-/
namespace NDSL.PlotPrep

/-! ### Specification -/

/-- The value of an array at indices given by name. -/
def byName {V : Type} (a : DArr V) (idx : String → Nat) : V := a.get (a.dims.map idx)

/-- The length of a dimension given by name. -/
def lengthOf {V : Type} (a : DArr V) (d : String) : Nat := a.shape.getD (a.dims.idxOf d) 0

/-- Arrays as xarray has them: different names, as many lengths. -/
structure Sound {V : Type} (a : DArr V) : Prop where
  names : a.dims.Nodup
  lengths : a.shape.length = a.dims.length

/-! ### Dimensions -/

theorem getD_idxOf {A : Type} (f : String → A) (x : A) : ∀ (dims : List String) (d : String), d ∈ dims → (dims.map f).getD (dims.idxOf d) x = f d
  | e :: dims, d, h => by
    by_cases he : e = d
    · subst he; simp
    · have : d ∈ dims := by
        rcases List.mem_cons.1 h with h | h
        · exact absurd h.symm he
        · exact h
      rw [List.map_cons, List.idxOf_cons_ne _ he, List.getD_cons_succ]
      exact getD_idxOf f x dims d this

theorem transpose_ok {V : Type} (a : DArr V) (dims : List String) (h : dims.Perm a.dims) :
    ∃ r, transpose a dims = .ok r ∧ r.dims = dims ∧ r.shape.length = dims.length ∧ (∀ d ∈ dims, lengthOf r d = lengthOf a d) ∧ ∀ idx, byName r idx = byName a idx := by
  unfold transpose
  rw [if_pos (List.isPerm_iff.2 h)]
  refine ⟨_, rfl, rfl, by simp, ?_, ?_⟩
  · intro d hd
    exact getD_idxOf _ 0 dims d hd
  · intro idx
    show a.get _ = a.get _
    congr 1
    apply List.map_congr_left
    intro d hd
    exact getD_idxOf idx 0 dims d (h.mem_iff.2 hd)

theorem putBack_map (gone : List String) (idx : String → Nat) : ∀ dims : List String,
    putBack gone dims ((dims.filter fun d => !gone.contains d).map idx) = dims.map fun d => if gone.contains d then 0 else idx d
  | [] => rfl
  | d :: dims => by
    unfold putBack
    by_cases h : gone.contains d = true
    · rw [if_pos h, List.filter_cons_of_neg (by simp at h ⊢; exact h), putBack_map gone idx dims, List.map_cons, if_pos h]
    · rw [if_neg h, List.filter_cons_of_pos (by simp at h ⊢; exact h)]
      simp only [List.map_cons]
      rw [putBack_map gone idx dims, if_neg h]

theorem takeOut_get (gone : List String) : ∀ (dims : List String) (l : List Nat) (d : String), d ∉ gone →
    l.length = dims.length → (takeOut gone dims l).getD ((dims.filter fun d => !gone.contains d).idxOf d) 0 = l.getD (dims.idxOf d) 0
  | [], [], d, _, _ => rfl
  | [], _ :: _, _, _, h => by cases h
  | _ :: _, [], _, _, h => by cases h
  | e :: dims, n :: l, d, hg, hl => by
    unfold takeOut
    by_cases h : gone.contains e = true
    · have hne : e ≠ d := fun he => hg (by subst he; simpa using h)
      rw [if_pos h, List.filter_cons_of_neg (by simp at h ⊢; exact h), List.idxOf_cons_ne _ hne, List.getD_cons_succ]
      exact takeOut_get gone dims l d hg (Nat.succ.inj hl)
    · rw [if_neg h, List.filter_cons_of_pos (by simp at h ⊢; exact h)]
      by_cases he : e = d
      · subst he; simp
      · rw [List.idxOf_cons_ne _ he, List.idxOf_cons_ne _ he, List.getD_cons_succ, List.getD_cons_succ]
        exact takeOut_get gone dims l d hg (Nat.succ.inj hl)

/-- C125: a variable of the grid with all the dimensions that are needed has just these, in the order asked for, with the same lengths and at each
index the value of the variable there, at the first index along the others. -/
theorem C125_grid {V : Type} (a : DArr V) (ha : Sound a) (required : List String) (hr : required.Nodup) (hm : ∀ d ∈ required, d ∈ a.dims)
    (hp : ∀ d ∈ a.dims, d ∉ required → 0 < lengthOf a d) :
    ∃ r, alignGrid a required = .ok r ∧ r.dims = required ∧ Sound r ∧ (∀ d ∈ required, lengthOf r d = lengthOf a d) ∧
      ∀ idx, byName r idx = byName a fun d => if d ∈ required then idx d else 0 := by
  unfold alignGrid
  rw [if_neg (by simp; exact hm)]
  generalize hg : (a.dims.filter fun d => !required.contains d) = gone
  have hgm : ∀ d, gone.contains d = true ↔ d ∈ a.dims ∧ d ∉ required := by
    intro d; rw [← hg]; simp
  have e1 : iselFirst a gone = .ok ⟨a.dims.filter fun d => !gone.contains d, takeOut gone a.dims a.shape, fun pos => a.get (putBack gone a.dims pos)⟩ := by
    unfold iselFirst
    rw [if_neg]
    intro h
    obtain ⟨d, hd, h0⟩ := List.any_eq_true.1 h
    have h2 := (hgm d).1 (by simpa using hd)
    have := hp d h2.1 h2.2
    unfold lengthOf at this
    simp at h0
    simp at this
    omega
  rw [e1]
  have hf : (a.dims.filter fun d => !gone.contains d) = a.dims.filter fun d => required.contains d := by
    apply List.filter_congr
    intro d hd
    by_cases h : d ∈ required
    · have : gone.contains d = false := by
        rw [Bool.eq_false_iff]; intro hc; exact ((hgm d).1 hc).2 h
      rw [this]; simp [h]
    · have : gone.contains d = true := (hgm d).2 ⟨hd, h⟩
      rw [this]; simp [h]
  have hperm : required.Perm (a.dims.filter fun d => !gone.contains d) := by
    rw [hf]
    refine (List.perm_ext_iff_of_nodup hr (List.Nodup.filter _ ha.names)).2 fun d => ?_
    simp only [List.mem_filter, List.contains_iff_mem]
    exact ⟨fun h => ⟨hm d h, h⟩, fun h => h.2⟩
  obtain ⟨r, hr1, hr2, hr3, hr4, hr5⟩ := transpose_ok ⟨a.dims.filter fun d => !gone.contains d, takeOut gone a.dims a.shape, fun pos => a.get (putBack gone a.dims pos)⟩ required hperm
  refine ⟨r, hr1, hr2, ⟨by rw [hr2]; exact hr, by rw [hr3, hr2]⟩, ?_, ?_⟩
  · intro d hd
    rw [hr4 d hd]
    refine takeOut_get gone a.dims a.shape d ?_ ha.lengths
    intro h
    exact ((hgm d).1 (by simpa using h)).2 hd
  · intro idx
    rw [hr5]
    show a.get (putBack gone a.dims ((a.dims.filter fun d => !gone.contains d).map idx)) = _
    rw [putBack_map]
    unfold byName
    congr 1
    apply List.map_congr_left
    intro d hd
    by_cases h : d ∈ required
    · have : ¬ gone.contains d = true := fun hc => ((hgm d).1 hc).2 h
      rw [if_neg this, if_pos h]
    · rw [if_pos ((hgm d).2 ⟨hd, h⟩), if_neg h]

/-- C125: a variable of the grid that lacks a dimension is refused. -/
theorem C125_grid_refused {V : Type} (a : DArr V) (required : List String) (d : String) (hd : d ∈ required) (hn : d ∉ a.dims) :
    alignGrid a required = .error .valueError := by
  unfold alignGrid
  rw [if_pos (by simp; exact ⟨d, hd, hn⟩)]

/-- C125: the variable to be plotted has rows, columns and tiles first, for whatever order of the others, and by name the same values. -/
theorem C125_plot {V : Type} (order : List String → List String) (ho : ∀ l, (order l).Perm l) (a : DArr V) (ha : Sound a) (y x : String)
    (hyx : y ≠ x) (hy : y ≠ "tile") (hx : x ≠ "tile") (hm : y ∈ a.dims ∧ x ∈ a.dims ∧ "tile" ∈ a.dims) :
    ∃ r, alignPlot order a y x = .ok r ∧ r.dims.take 3 = [y, x, "tile"] ∧ r.dims.Perm a.dims ∧ (∀ d ∈ a.dims, lengthOf r d = lengthOf a d) ∧
      ∀ idx, byName r idx = byName a idx := by
  unfold alignPlot
  rw [if_neg (by simp; exact hm)]
  have hp : ([y, x, "tile"] ++ order (a.dims.filter fun d => ![y, x, "tile"].contains d)).Perm a.dims := by
    refine ((ho _).append_left _).trans ?_
    refine (List.perm_ext_iff_of_nodup ?_ ha.names).2 fun d => ?_
    · rw [List.nodup_append]
      refine ⟨by simp [hyx, hy, hx], List.Nodup.filter _ ha.names, ?_⟩
      intro u hu v hv e
      subst e
      have := (List.mem_filter.1 hv).2
      simp at this hu
      tauto
    · simp only [List.mem_append, List.mem_filter]
      constructor
      · rintro (h | h)
        · simp at h
          rcases h with rfl | rfl | rfl
          · exact hm.1
          · exact hm.2.1
          · exact hm.2.2
        · exact h.1
      · intro h
        by_cases hd : d ∈ [y, x, "tile"]
        · exact Or.inl hd
        · exact Or.inr ⟨h, by simp at hd ⊢; exact hd⟩
  obtain ⟨r, h1, h2, _, h4, h5⟩ := transpose_ok a _ hp
  refine ⟨r, h1, by rw [h2]; rfl, by rw [h2]; exact hp, fun d hd => h4 d (hp.mem_iff.2 hd), h5⟩

/-- C125: a variable without one of these dimensions is refused. -/
theorem C125_plot_refused {V : Type} (order : List String → List String) (a : DArr V) (y x : String) (h : y ∉ a.dims ∨ x ∉ a.dims ∨ "tile" ∉ a.dims) :
    alignPlot order a y x = .error .valueError := by
  unfold alignPlot
  rw [if_pos (by simp; exact h)]

/-- The grid variable `b` is the variable `a` of the dataset along `dims`, in this order and by name, taken at the first entry of every other dimension. -/
def AlignedTo {V : Type} (a b : DArr V) (dims : List String) : Prop :=
  b.dims = dims ∧ (∀ d ∈ dims, lengthOf b d = lengthOf a d) ∧ ∀ idx, byName b idx = byName a fun d => if d ∈ dims then idx d else 0

/-- The variable can be aligned along `dims`. -/
def CanAlign {V : Type} (a : DArr V) (dims : List String) : Prop :=
  Sound a ∧ (∀ d ∈ dims, d ∈ a.dims) ∧ ∀ d ∈ a.dims, d ∉ dims → 0 < lengthOf a d

theorem alignAll_ok {V : Type} (ds : String → Option (DArr V)) (l : List (String × List String))
    (h : ∀ e ∈ l, e.2.Nodup ∧ ∃ a, ds e.1 = some a ∧ CanAlign a e.2) :
    ∃ r, alignAll ds l = .ok r ∧ r.map Prod.fst = l.map Prod.fst ∧
      ∀ k (hk : k < l.length) (hr : k < r.length), ∀ a, ds (l[k].1) = some a → AlignedTo a (r[k].2) (l[k].2) := by
  induction l with
  | nil => exact ⟨[], rfl, rfl, fun k hk => absurd hk (Nat.not_lt_zero _)⟩
  | cons e l ih =>
    obtain ⟨v, dims⟩ := e
    obtain ⟨hn, a, ha, hs, hm, hp⟩ := h (v, dims) (List.mem_cons_self ..)
    obtain ⟨b, e1, b1, _, b3, b4⟩ := C125_grid a hs dims hn hm hp
    obtain ⟨r, e2, r1, r2⟩ := ih fun e he => h e (List.mem_cons_of_mem _ he)
    refine ⟨(v, b) :: r, ?_, ?_, ?_⟩
    · simp only at ha
      simp only [alignAll, ha, e1, e2]
      rfl
    · simp [r1]
    · intro k hk hr c hc
      cases k with
      | zero =>
        simp only [List.getElem_cons_zero] at hc ⊢
        simp only at ha
        rw [ha] at hc
        cases hc
        exact ⟨b1, b3, b4⟩
      | succ k =>
        simp only [List.getElem_cons_succ] at hc ⊢
        exact r2 k (by simpa using hk) (by simpa using hr) c hc

/-- C125: the dataset made ready for a plot has the longitudes and latitudes of the corners along (j interface, i interface, tile), those of the cells
along (j, i, tile), all with the values of the dataset by name, and the variable along (j, i, tile) and whatever comes after. -/
theorem C125_ready {V : Type} (order : List String → List String) (ho : ∀ l, (order l).Perm l) (ds : String → Option (DArr V))
    (lonb latb lon lat a : DArr V) (name : String) (h1 : ds "lonb" = some lonb) (h2 : ds "latb" = some latb) (h3 : ds "lon" = some lon)
    (h4 : ds "lat" = some lat) (h5 : ds name = some a)
    (c1 : CanAlign lonb ["j_interface", "i_interface", "tile"]) (c2 : CanAlign latb ["j_interface", "i_interface", "tile"])
    (c3 : CanAlign lon ["j", "i", "tile"]) (c4 : CanAlign lat ["j", "i", "tile"]) (c5 : Sound a) (hm : "j" ∈ a.dims ∧ "i" ∈ a.dims ∧ "tile" ∈ a.dims) :
    ∃ lonb' latb' lon' lat' v, mappable order ds {} name = .ok ([("lonb", lonb'), ("latb", latb'), ("lon", lon'), ("lat", lat')], v) ∧
      AlignedTo lonb lonb' ["j_interface", "i_interface", "tile"] ∧ AlignedTo latb latb' ["j_interface", "i_interface", "tile"] ∧
      AlignedTo lon lon' ["j", "i", "tile"] ∧ AlignedTo lat lat' ["j", "i", "tile"] ∧
      v.dims.take 3 = ["j", "i", "tile"] ∧ v.dims.Perm a.dims ∧ (∀ d ∈ a.dims, lengthOf v d = lengthOf a d) ∧ ∀ idx, byName v idx = byName a idx := by
  obtain ⟨r, e1, r1, r2⟩ := alignAll_ok ds (Grid.coordVars {}) (by
    intro e he
    simp only [Grid.coordVars, List.mem_cons, List.not_mem_nil, or_false] at he
    rcases he with rfl | rfl | rfl | rfl
    · exact ⟨by decide, _, h1, c1⟩
    · exact ⟨by decide, _, h2, c2⟩
    · exact ⟨by decide, _, h3, c3⟩
    · exact ⟨by decide, _, h4, c4⟩)
  obtain ⟨v, e2, v1, v2, v3, v4⟩ := C125_plot order ho a c5 "j" "i" (by decide) (by decide) (by decide) hm
  simp only [Grid.coordVars, List.map_cons, List.map_nil] at r1
  match r, r1, e1, r2 with
  | [(n1, b1), (n2, b2), (n3, b3), (n4, b4)], r1, e1, r2 =>
    simp only [List.map_cons, List.map_nil, List.cons.injEq, and_true] at r1
    obtain ⟨rfl, rfl, rfl, rfl⟩ := r1
    refine ⟨b1, b2, b3, b4, v, ?_, r2 0 (by decide) (by simp) _ h1, r2 1 (by decide) (by simp) _ h2, r2 2 (by decide) (by simp) _ h3,
      r2 3 (by decide) (by simp) _ h4, v1, v2, v3, v4⟩
    unfold mappable
    rw [e1]
    simp only [bind, Except.bind, h5]
    rw [e2]
    rfl

/-! ### Shapes -/

theorem differ_ok {a b : Except Err Nat} : differ a b = .ok () ↔ ∃ n, a = .ok n ∧ b = .ok n := by
  unfold differ
  cases a with
  | error e => simp [bind, Except.bind]
  | ok x =>
    cases b with
    | error e => simp [bind, Except.bind]
    | ok y =>
      simp only [bind, Except.bind]
      by_cases h : x = y
      · rw [if_pos h]; subst h; simp [pure, Except.pure]
      · rw [if_neg h]; simp; exact fun e => h e.symm

theorem bind_ok {a : Except Err Unit} {f : Unit → Except Err Unit} : (a >>= f) = .ok () ↔ a = .ok () ∧ f () = .ok () := by
  cases a with
  | error e => simp [bind, Except.bind]
  | ok u => simp [bind, Except.bind]

/-- C125: shapes are accepted exactly when the centres and the data are rows by columns by six, and the corners one more in both directions. -/
theorem C125_shapes (lat lon latb lonb array : List Nat) :
    validateShapes lat lon latb lonb array = .ok () ↔ ∃ ny nx, lat = [ny, nx, 6] ∧ lon = [ny, nx, 6] ∧ array = [ny, nx, 6] ∧
      latb = [ny + 1, nx + 1, 6] ∧ lonb = [ny + 1, nx + 1, 6] := by
  have three : ∀ l : List Nat, l.length = 3 → ∃ a b c, l = [a, b, c] := by
    intro l h
    match l, h with
    | [a, b, c], _ => exact ⟨a, b, c, rfl⟩
  constructor
  · intro h
    unfold validateShapes at h
    simp only [bind_ok, differ_ok] at h
    obtain ⟨h1, h2, h3, h4, h5, h6, h7, ⟨n8, h8, h8'⟩, ⟨n9, h9, h9'⟩, ⟨n10, h10, h10'⟩, h11, h12, h13, h14, h15, h16, h17, ⟨n18, h18, h18'⟩, ⟨n19, h19, h19'⟩, _⟩ := h
    cases h8'; cases h9'; cases h10'; cases h18'; cases h19'
    obtain ⟨p0, p1, p2, rfl⟩ := three lonb (Except.ok.inj h8)
    obtain ⟨q0, q1, q2, rfl⟩ := three latb (Except.ok.inj h9)
    obtain ⟨a0, a1, a2, rfl⟩ := three array (Except.ok.inj h10)
    obtain ⟨r0, r1, r2, rfl⟩ := three lon (Except.ok.inj h18)
    obtain ⟨s0, s1, s2, rfl⟩ := three lat (Except.ok.inj h19)
    simp [last, item, Except.map] at h1 h2 h3 h4 h5 h6 h7 h11 h12 h13 h14 h15 h16 h17
    refine ⟨a0, a1, ?_, ?_, ?_, ?_, ?_⟩ <;> simp <;> omega
  · rintro ⟨ny, nx, rfl, rfl, rfl, rfl, rfl⟩
    simp [validateShapes, bind_ok, differ_ok, last, item, Except.map]

/-! ### Limits of colours -/

theorem sorted_perm (x : List ℚ) : (sorted x).Perm x := List.mergeSort_perm _ _

theorem sorted_sorted (x : List ℚ) : (sorted x).Pairwise (· ≤ ·) := by
  have := List.pairwise_mergeSort (le := fun a b : ℚ => decide (a ≤ b)) (by simp; exact fun a b c => le_trans) (by simp; exact fun a b => le_total a b) x
  unfold sorted
  simpa using this

theorem getD_le (x : List ℚ) (h : x.Pairwise (· ≤ ·)) (i j : Nat) (hij : i ≤ j) (hj : j < x.length) : x.getD i 0 ≤ x.getD j 0 := by
  rw [List.getD_eq_getElem _ _ (by omega), List.getD_eq_getElem _ _ hj]
  rcases Nat.lt_or_eq_of_le hij with h1 | h1
  · exact List.pairwise_iff_getElem.1 h i j _ hj h1
  · subst h1; exact le_refl _

/-- The place of a percentile: between these two numbers. -/
theorem percentile_between (x : List ℚ) (hs : x.Pairwise (· ≤ ·)) (hn : 0 < x.length) (q : ℚ) (h0 : 0 ≤ q) (h1 : q ≤ 100) :
    let k := (q / 100 * ((x.length : ℚ) - 1)).floor.toNat
    k < x.length ∧ x.getD k 0 ≤ percentile x q ∧ (k + 1 < x.length → percentile x q ≤ x.getD (k + 1) 0) ∧ (k + 1 = x.length → percentile x q = x.getD k 0) := by
  intro k
  have hx : (1 : ℚ) ≤ x.length := by exact_mod_cast hn
  have hv0 : 0 ≤ q / 100 * ((x.length : ℚ) - 1) := mul_nonneg (by linarith) (by linarith)
  have hv1 : q / 100 * ((x.length : ℚ) - 1) ≤ (x.length : ℚ) - 1 := by
    have : q / 100 ≤ 1 := by linarith
    nlinarith
  have hf : (q / 100 * ((x.length : ℚ) - 1)).floor = ⌊q / 100 * ((x.length : ℚ) - 1)⌋ := rfl
  have hf0 : 0 ≤ ⌊q / 100 * ((x.length : ℚ) - 1)⌋ := Int.floor_nonneg.2 hv0
  have hk : ((k : Nat) : ℚ) = (⌊q / 100 * ((x.length : ℚ) - 1)⌋ : ℚ) := by
    have : ((k : Nat) : ℤ) = ⌊q / 100 * ((x.length : ℚ) - 1)⌋ := by
      show (((q / 100 * ((x.length : ℚ) - 1)).floor.toNat : Nat) : ℤ) = _
      rw [hf]; omega
    exact_mod_cast this
  have hle : (k : ℚ) ≤ q / 100 * ((x.length : ℚ) - 1) := by rw [hk]; exact Int.floor_le _
  have hlt : q / 100 * ((x.length : ℚ) - 1) < k + 1 := by rw [hk]; exact Int.lt_floor_add_one _
  have hkn : k < x.length := by
    have : (k : ℚ) < x.length := by linarith
    exact_mod_cast this
  have hp : percentile x q = x.getD k 0 + (q / 100 * ((x.length : ℚ) - 1) - k) * (x.getD (if k + 1 < x.length then k + 1 else x.length - 1) 0 - x.getD k 0) := rfl
  refine ⟨hkn, ?_, ?_, ?_⟩
  · rw [hp]
    have : x.getD k 0 ≤ x.getD (if k + 1 < x.length then k + 1 else x.length - 1) 0 := by
      split
      · exact getD_le x hs _ _ (by omega) (by omega)
      · exact getD_le x hs _ _ (by omega) (by omega)
    nlinarith [mul_nonneg (sub_nonneg.2 hle) (sub_nonneg.2 this)]
  · intro h
    rw [hp, if_pos h]
    have := getD_le x hs k (k + 1) (by omega) h
    have h2 : q / 100 * ((x.length : ℚ) - 1) - k ≤ 1 := by linarith
    nlinarith [mul_nonneg (sub_nonneg.2 h2) (sub_nonneg.2 this)]
  · intro h
    rw [hp, if_neg (by omega), show x.length - 1 = k by omega]
    ring

theorem percentile_mono (x : List ℚ) (hs : x.Pairwise (· ≤ ·)) (hn : 0 < x.length) (p q : ℚ) (h0 : 0 ≤ p) (hpq : p ≤ q) (h1 : q ≤ 100) : percentile x p ≤ percentile x q := by
  obtain ⟨a1, a2, a3, a4⟩ := percentile_between x hs hn p h0 (le_trans hpq h1)
  obtain ⟨b1, b2, b3, b4⟩ := percentile_between x hs hn q (le_trans h0 hpq) h1
  have hx : (1 : ℚ) ≤ x.length := by exact_mod_cast hn
  have hv : p / 100 * ((x.length : ℚ) - 1) ≤ q / 100 * ((x.length : ℚ) - 1) := mul_le_mul_of_nonneg_right (by linarith) (by linarith)
  have hf : (p / 100 * ((x.length : ℚ) - 1)).floor ≤ (q / 100 * ((x.length : ℚ) - 1)).floor := Int.floor_le_floor hv
  have hk : (p / 100 * ((x.length : ℚ) - 1)).floor.toNat ≤ (q / 100 * ((x.length : ℚ) - 1)).floor.toNat := Int.toNat_le_toNat hf
  rcases Nat.lt_or_eq_of_le hk with h | h
  · exact le_trans (a3 (by omega)) (le_trans (getD_le x hs _ _ h b1) b2)
  · have ep : percentile x p = x.getD (p / 100 * ((x.length : ℚ) - 1)).floor.toNat 0 + (p / 100 * ((x.length : ℚ) - 1) - ((p / 100 * ((x.length : ℚ) - 1)).floor.toNat : ℚ)) *
        (x.getD (if (p / 100 * ((x.length : ℚ) - 1)).floor.toNat + 1 < x.length then (p / 100 * ((x.length : ℚ) - 1)).floor.toNat + 1 else x.length - 1) 0 - x.getD (p / 100 * ((x.length : ℚ) - 1)).floor.toNat 0) := rfl
    have eq : percentile x q = x.getD (q / 100 * ((x.length : ℚ) - 1)).floor.toNat 0 + (q / 100 * ((x.length : ℚ) - 1) - ((q / 100 * ((x.length : ℚ) - 1)).floor.toNat : ℚ)) *
        (x.getD (if (q / 100 * ((x.length : ℚ) - 1)).floor.toNat + 1 < x.length then (q / 100 * ((x.length : ℚ) - 1)).floor.toNat + 1 else x.length - 1) 0 - x.getD (q / 100 * ((x.length : ℚ) - 1)).floor.toNat 0) := rfl
    rw [ep, eq, ← h]
    generalize (p / 100 * ((x.length : ℚ) - 1)).floor.toNat = k at *
    have hd : x.getD k 0 ≤ x.getD (if k + 1 < x.length then k + 1 else x.length - 1) 0 := by
      split
      · exact getD_le x hs _ _ (by omega) (by omega)
      · exact getD_le x hs _ _ (by omega) (by omega)
    nlinarith [mul_nonneg (sub_nonneg.2 hv) (sub_nonneg.2 hd)]

theorem count_below (x : List ℚ) (hs : x.Pairwise (· ≤ ·)) (p : ℚ) (m : Nat) (hm : m < x.length) (h : p ≤ x.getD m 0) : x.countP (fun v => decide (v < p)) ≤ m := by
  conv_lhs => rw [← List.take_append_drop m x]
  rw [List.countP_append]
  have h1 : (x.drop m).countP (fun v => decide (v < p)) = 0 := by
    rw [List.countP_eq_zero]
    intro v hv
    obtain ⟨j, hj, rfl⟩ := List.mem_iff_getElem.1 hv
    rw [List.getElem_drop]
    have hj' : m + j < x.length := by rw [List.length_drop] at hj; omega
    have := getD_le x hs m (m + j) (by omega) hj'
    rw [List.getD_eq_getElem _ _ hj'] at this
    simp
    linarith
  have h2 := List.countP_le_length (p := fun v => decide (v < p)) (l := x.take m)
  rw [List.length_take] at h2
  omega

theorem count_upto (x : List ℚ) (hs : x.Pairwise (· ≤ ·)) (p : ℚ) (m : Nat) (hm : m < x.length) (h : x.getD m 0 ≤ p) : m + 1 ≤ x.countP (fun v => decide (v ≤ p)) := by
  conv_rhs => rw [← List.take_append_drop (m + 1) x]
  rw [List.countP_append]
  have h1 : (x.take (m + 1)).countP (fun v => decide (v ≤ p)) = (x.take (m + 1)).length := by
    rw [List.countP_eq_length]
    intro v hv
    obtain ⟨j, hj, rfl⟩ := List.mem_iff_getElem.1 hv
    rw [List.getElem_take]
    have hj' : j < m + 1 := by rw [List.length_take] at hj; omega
    have := getD_le x hs j m (by omega) hm
    rw [List.getD_eq_getElem _ _ (by omega)] at this
    simp
    linarith
  rw [h1, List.length_take]
  omega

/-- C125: robust limits: with `k` the whole part of `p` percent of one less than the number of values, at most `k + 1` values are below the limit for
`p`, and at least `k + 1` are not above it; NaN is not counted. -/
theorem C125_percentile (data : List (Option ℚ)) (p q lo hi : ℚ) (hp0 : 0 ≤ p) (hp1 : p ≤ 100) (hq0 : 0 ≤ q) (hq1 : q ≤ 100) (h : minMax data p q = some (lo, hi)) :
    let x := data.filterMap id
    let place := fun r : ℚ => ⌊r / 100 * ((x.length : ℚ) - 1)⌋.toNat
    x.countP (fun v => decide (v < lo)) ≤ place p + 1 ∧ place p + 1 ≤ x.countP (fun v => decide (v ≤ lo)) ∧
    x.countP (fun v => decide (v < hi)) ≤ place q + 1 ∧ place q + 1 ≤ x.countP (fun v => decide (v ≤ hi)) := by
  intro x place
  unfold minMax at h
  simp only at h
  split at h
  · cases h
  · rename_i hne
    have hlen : (sorted x).length = x.length := (sorted_perm x).length_eq
    have hn : 0 < (sorted x).length := by rw [hlen]; exact Nat.pos_of_ne_zero hne
    have key : ∀ r : ℚ, 0 ≤ r → r ≤ 100 → x.countP (fun v => decide (v < percentile (sorted x) r)) ≤ place r + 1 ∧
        place r + 1 ≤ x.countP (fun v => decide (v ≤ percentile (sorted x) r)) := by
      intro r h0 h1
      obtain ⟨hk, ha, hb, hc⟩ := percentile_between (sorted x) (sorted_sorted x) hn r h0 h1
      have hpl : (r / 100 * (((sorted x).length : ℚ) - 1)).floor.toNat = place r := by rw [hlen]; rfl
      rw [hpl] at hk ha hb hc
      rw [← (sorted_perm x).countP_eq, ← (sorted_perm x).countP_eq]
      refine ⟨?_, count_upto _ (sorted_sorted x) _ _ hk ha⟩
      rcases Nat.lt_or_eq_of_le (Nat.succ_le_of_lt hk) with h2 | h2
      · exact count_below _ (sorted_sorted x) _ _ h2 (hb h2)
      · exact Nat.le_succ_of_le (count_below _ (sorted_sorted x) _ _ hk (le_of_eq (hc h2)))
    have e := Option.some.inj h
    rw [Prod.mk.injEq] at e
    rw [← e.1, ← e.2]
    exact ⟨(key p hp0 hp1).1, (key p hp0 hp1).2, (key q hq0 hq1).1, (key q hq0 hq1).2⟩

/-- C125: robust limits lie within the data, the lower one not above the upper one, and are there exactly when there is some number. -/
theorem C125_robust (data : List (Option ℚ)) (p q : ℚ) (hp0 : 0 ≤ p) (hpq : p ≤ q) (hq1 : q ≤ 100) :
    (minMax data p q = none ↔ ∀ x ∈ data, x = none) ∧
    ∀ lo hi, minMax data p q = some (lo, hi) → lo ≤ hi ∧ (∃ v, some v ∈ data ∧ v ≤ lo) ∧ ∃ v, some v ∈ data ∧ hi ≤ v := by
  have hm : ∀ x, some x ∈ data ↔ x ∈ sorted (data.filterMap id) := by intro x; rw [(sorted_perm _).mem_iff]; simp
  constructor
  · unfold minMax
    simp only
    split
    · rename_i h
      have h := List.eq_nil_of_length_eq_zero h
      simp only [true_iff]
      intro x hx
      cases x with
      | none => rfl
      | some v => have : v ∈ data.filterMap id := by simp [hx]
                  rw [h] at this; cases this
    · rename_i h
      simp only [reduceCtorEq, false_iff]
      intro hall
      apply h
      have : data.filterMap id = [] := by
        rw [List.filterMap_eq_nil_iff]; exact hall
      rw [this]; rfl
  · intro lo hi h
    unfold minMax at h
    simp only at h
    split at h
    · cases h
    · rename_i hne
      have hn : 0 < (sorted (data.filterMap id)).length := by rw [(sorted_perm _).length_eq]; exact Nat.pos_of_ne_zero hne
      have e := Option.some.inj h
      rw [Prod.mk.injEq] at e
      obtain ⟨rfl, rfl⟩ := e
      have hs := sorted_sorted (data.filterMap id)
      obtain ⟨a1, a2, _, _⟩ := percentile_between _ hs hn p hp0 (le_trans hpq hq1)
      obtain ⟨b1, _, b3, b4⟩ := percentile_between _ hs hn q (le_trans hp0 hpq) hq1
      refine ⟨percentile_mono _ hs hn p q hp0 hpq hq1, ⟨_, (hm _).2 ?_, a2⟩, ?_⟩
      · rw [List.getD_eq_getElem _ _ a1]; exact List.getElem_mem _
      · rcases Nat.lt_or_eq_of_le (Nat.succ_le_of_lt b1) with h2 | h2
        · exact ⟨_, (hm _).2 (by rw [List.getD_eq_getElem _ _ h2]; exact List.getElem_mem _), b3 h2⟩
        · exact ⟨_, (hm _).2 (by rw [List.getD_eq_getElem _ _ b1]; exact List.getElem_mem _), le_of_eq (b4 h2)⟩

theorem fold_min : ∀ (l : List ℚ) (x : ℚ), l.foldl (fun a b => if b < a then b else a) x ∈ x :: l ∧ ∀ v ∈ x :: l, l.foldl (fun a b => if b < a then b else a) x ≤ v
  | [], x => by simp
  | y :: l, x => by
    rw [List.foldl_cons]
    obtain ⟨h1, h2⟩ := fold_min l (if y < x then y else x)
    constructor
    · rcases List.mem_cons.1 h1 with h | h
      · rw [h]; split <;> simp
      · simp [h]
    · intro v hv
      have h3 := h2 (if y < x then y else x) (by simp)
      have h4 : (if y < x then y else x) ≤ x ∧ (if y < x then y else x) ≤ y := by split <;> constructor <;> linarith
      rcases List.mem_cons.1 hv with rfl | hv
      · exact le_trans h3 h4.1
      · rcases List.mem_cons.1 hv with rfl | hv
        · exact le_trans h3 h4.2
        · exact h2 v (by simp [hv])

theorem fold_max : ∀ (l : List ℚ) (x : ℚ), l.foldl (fun a b => if a < b then b else a) x ∈ x :: l ∧ ∀ v ∈ x :: l, v ≤ l.foldl (fun a b => if a < b then b else a) x
  | [], x => by simp
  | y :: l, x => by
    rw [List.foldl_cons]
    obtain ⟨h1, h2⟩ := fold_max l (if x < y then y else x)
    constructor
    · rcases List.mem_cons.1 h1 with h | h
      · rw [h]; split <;> simp
      · simp [h]
    · intro v hv
      have h3 := h2 (if x < y then y else x) (by simp)
      have h4 : x ≤ (if x < y then y else x) ∧ y ≤ (if x < y then y else x) := by split <;> constructor <;> linarith
      rcases List.mem_cons.1 hv with rfl | hv
      · exact le_trans h4.1 h3
      · rcases List.mem_cons.1 hv with rfl | hv
        · exact le_trans h4.2 h3
        · exact h2 v (by simp [hv])

/-- C125: without limits given and not robust, every number of the data is within the limits. -/
theorem C125_limits (data : List (Option ℚ)) (v : ℚ) (hv : some v ∈ data) (cmap : Option String) :
    ∃ lo hi c, inferCmap data none none cmap false = .ok (some (lo, hi, c)) ∧ ∀ x, some x ∈ data → lo ≤ x ∧ x ≤ hi := by
  have hm : ∀ x, some x ∈ data ↔ x ∈ data.filterMap id := by intro x; simp
  cases hx : data.filterMap id with
  | nil => have := (hm v).1 hv; rw [hx] at this; cases this
  | cons y l =>
    have hd : nanMinMax data = .ok (some (l.foldl (fun a b => if b < a then b else a) y, l.foldl (fun a b => if a < b then b else a) y)) := by
      unfold nanMinMax
      cases data with
      | nil => cases hv
      | cons => simp only [hx]
    obtain ⟨⟨lo, hi, c⟩, hc⟩ : ∃ r, Masking.colorLimits (l.foldl (fun a b => if b < a then b else a) y) (l.foldl (fun a b => if a < b then b else a) y) none none cmap = .ok r := by
      rw [Masking.colorLimits]; split <;> exact ⟨_, rfl⟩
    refine ⟨lo, hi, c, ?_, ?_⟩
    · simp only [inferCmap, hd, hc, bind, Except.bind, pure, Except.pure]
      rfl
    · intro x hxd
      have := (Masking.C105_colors _ _ none none cmap lo hi c hc).2.2.2.1 rfl rfl
      have hxl := (hm x).1 hxd
      rw [hx] at hxl
      exact ⟨le_trans this.1 ((fold_min l y).2 x hxl), le_trans ((fold_max l y).2 x hxl) this.2⟩

/-- C125: given limits are kept, robust or not. -/
theorem C125_given (data : List (Option ℚ)) (v : ℚ) (hv : some v ∈ data) (lo hi : ℚ) (robust : Bool) :
    inferCmap data (some lo) (some hi) none robust = .ok (some (lo, hi, if lo = -hi then "RdBu_r" else "viridis")) := by
  have hx : v ∈ data.filterMap id := by simp [hv]
  cases robust with
  | true =>
    have : ∃ m, minMax data 2 98 = some m := by
      unfold minMax
      simp only
      split
      · rename_i h; rw [List.eq_nil_of_length_eq_zero h] at hx; cases hx
      · exact ⟨_, rfl⟩
    obtain ⟨⟨a, b⟩, hm⟩ := this
    simp only [inferCmap, hm, bind, Except.bind, pure, Except.pure]
    rfl
  | false =>
    have : ∃ m, nanMinMax data = .ok (some m) := by
      unfold nanMinMax
      cases data with
      | nil => cases hv
      | cons d l =>
        cases he : (d :: l).filterMap id with
        | nil => rw [he] at hx; cases hx
        | cons y m => exact ⟨_, rfl⟩
    obtain ⟨⟨a, b⟩, hm⟩ := this
    simp only [inferCmap, hm, bind, Except.bind, pure, Except.pure]
    rfl

/-! ### Where it is not so -/

/-- C125: a grid that changes along a further dimension, such as time, is plotted as it is at the first index: what it is later does not matter. -/
theorem C125_moving_violated {V : Type} (f g : Nat → Nat → V) (hfg : ∀ n, f 0 n = g 0 n) (nt n : Nat) (ht : 0 < nt) :
    ∃ r r', alignGrid ⟨["time", "ncol"], [nt, n], fun pos => f (pos.getD 0 0) (pos.getD 1 0)⟩ ["ncol"] = .ok r ∧
      alignGrid ⟨["time", "ncol"], [nt, n], fun pos => g (pos.getD 0 0) (pos.getD 1 0)⟩ ["ncol"] = .ok r' ∧ ∀ i, r.get [i] = r'.get [i] := by
  have e : ∀ f : Nat → Nat → V, ∃ r, alignGrid ⟨["time", "ncol"], [nt, n], fun pos => f (pos.getD 0 0) (pos.getD 1 0)⟩ ["ncol"] = .ok r ∧ ∀ i, r.get [i] = f 0 i := by
    intro f
    obtain ⟨r, h1, h2, _, _, h5⟩ := C125_grid ⟨["time", "ncol"], [nt, n], fun pos => f (pos.getD 0 0) (pos.getD 1 0)⟩ ⟨by show ["time", "ncol"].Nodup; decide, rfl⟩ ["ncol"] (by decide)
      (by show ∀ d ∈ ["ncol"], d ∈ ["time", "ncol"]; decide) (by
        intro d hd hn
        simp at hd hn
        rcases hd with rfl | rfl
        · exact ht
        · exact absurd rfl hn)
    refine ⟨r, h1, fun i => ?_⟩
    have := h5 fun _ => i
    unfold byName at this
    rw [h2] at this
    simpa using this
  obtain ⟨r, h1, h2⟩ := e f
  obtain ⟨r', h1', h2'⟩ := e g
  exact ⟨r, r', h1, h1', fun i => by rw [h2, h2', hfg]⟩

/-- A data set in which the tiles are called `face`. -/
def faces : String → Option (DArr Nat)
  | "lon" => some ⟨["j", "i", "face"], [2, 2, 6], fun _ => 0⟩
  | "lat" => some ⟨["j", "i", "face"], [2, 2, 6], fun _ => 0⟩
  | "lonb" => some ⟨["face", "j_interface", "i_interface"], [6, 3, 3], fun _ => 0⟩
  | "latb" => some ⟨["face", "j_interface", "i_interface"], [6, 3, 3], fun _ => 0⟩
  | "t" => some ⟨["face", "j", "i"], [6, 2, 2], fun _ => 0⟩
  | _ => none

/-- C125: a grid description with another name for tiles is followed for the grid, but not for the variable, which is refused. -/
theorem C125_tile_violated (order : List String → List String) :
    (∃ g, alignAll faces (Grid.coordVars { tile := "face" }) = .ok g) ∧ mappable order faces { tile := "face" } "t" = .error .valueError := by
  constructor
  · exact ⟨_, rfl⟩
  · rfl

/-- C125: in few data an outlier is not left out: of four numbers, the lower limit is nearly the smallest. -/
theorem C125_few_violated : minMax [some (-1000), some 0, none, some 1, some 2] 2 98 = some (-940, 97 / 50) := by
  have e : sorted ([some (-1000), some 0, none, some 1, some 2].filterMap id) = [-1000, 0, 1, 2] :=
    List.mergeSort_of_pairwise (l := [(-1000 : ℚ), 0, 1, 2]) (by decide +kernel)
  unfold minMax
  simp only [e]
  decide +kernel

/-! ### Cases that meet the hypotheses -/

example : CanAlign (⟨["tile", "i", "j", "time"], [6, 4, 3, 2], fun pos => pos⟩ : DArr (List Nat)) ["j", "i", "tile"] :=
  ⟨⟨by decide, rfl⟩, by decide, by decide⟩

example : Sound (⟨["time", "j", "i", "tile"], [2, 3, 4, 6], fun pos => pos⟩ : DArr (List Nat)) := ⟨by decide, rfl⟩

example : ∃ r, alignGrid (⟨["time", "tile", "j", "i"], [2, 6, 3, 4], fun pos => pos⟩ : DArr (List Nat)) ["j", "i", "tile"] = .ok r ∧ r.shape = [3, 4, 6] ∧
    r.get [1, 2, 5] = [0, 5, 1, 2] := ⟨_, rfl, rfl, rfl⟩

example : ∃ r, alignPlot List.reverse (⟨["time", "tile", "z", "j", "i"], [2, 6, 9, 3, 4], fun pos => pos⟩ : DArr (List Nat)) "j" "i" = .ok r ∧
    r.dims = ["j", "i", "tile", "z", "time"] ∧ r.get [1, 2, 5, 8, 0] = [0, 5, 8, 1, 2] := ⟨_, rfl, rfl, rfl⟩

example : validateShapes [4, 5, 6] [4, 5, 6] [5, 6, 6] [5, 6, 6] [4, 5, 6] = .ok () ∧ validateShapes [4, 5, 6] [4, 5, 6] [5, 6, 6] [6, 6, 6] [4, 5, 6] = .error .valueError ∧
    validateShapes [] [] [] [] [] = .error .indexError := ⟨rfl, rfl, rfl⟩

example : inferCmap [some 1, none, some (-3), some 2] none none none false = .ok (some (-3, 3, "RdBu_r")) := by decide +kernel

end NDSL.PlotPrep
