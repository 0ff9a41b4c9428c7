import Verif.Model.StencilFactory
import Verif.Props.GridIndexing
import Mathlib.Tactic.Linarith
import Mathlib.Tactic.Ring
import Mathlib.Tactic.FieldSimp
import Mathlib.Data.List.Perm.Basic
import Mathlib.Algebra.BigOperators.Group.List.Basic
import Mathlib.Data.Rat.Floor
/-
Property C108: stencils made by a factory compute every point of a tile once, edges of regions are the edges of the tile, the
user's externals win; and the reports of times are complete.
-/
namespace NDSL.StencilFactory
open NDSL.Indexing

/-! ### Specification -/

/-- The stencil computes the point. -/
def Computes {E : Type} (s : Made E) (i j k : Int) : Prop :=
  (s.origin.1 ≤ i ∧ i < s.origin.1 + s.domain.1) ∧ (s.origin.2.1 ≤ j ∧ j < s.origin.2.1 + s.domain.2.1) ∧
    (s.origin.2.2 ≤ k ∧ k < s.origin.2.2 + s.domain.2.2)

/-- One point more on interfaces. -/
def more (d : Dim) : Int := if d.isInterface then 1 else 0

/-- Where a point of a rank is in its tile. -/
def tileI (s : Sizer) (p : TilePart) (rank i : Int) : Int := (p.subtileIndex rank).2 * s.nx + (i - s.nHalo)
def tileJ (s : Sizer) (p : TilePart) (rank j : Int) : Int := (p.subtileIndex rank).1 * s.ny + (j - s.nHalo)

/-! ### Stencils -/

theorem axis_cases (d1 d2 d3 : Dim) (h1 : d1.isI = true) (h2 : d2.isJ = true) (h3 : d3.isK = true) :
    (d1 = .i ∨ d1 = .iInterface) ∧ (d2 = .j ∨ d2 = .jInterface) ∧ (d3 = .k ∨ d3 = .kInterface) := by
  refine ⟨?_, ?_, ?_⟩
  · cases d1 <;> simp_all [Dim.isI]
  · cases d2 <;> simp_all [Dim.isJ]
  · cases d3 <;> simp_all [Dim.isK]

theorem made_eq {E : Type} (f : Factory) (d1 d2 d3 : Dim) (h1 : d1.isI = true) (h2 : d2.isJ = true) (h3 : d3.isK = true)
    (halos : List Int) (hh : halos.length ≤ 3) (ext : List (String × Ext E)) :
    let o : Index3 := (f.grid.nHalo - halos.getD 0 0, f.grid.nHalo - halos.getD 1 0, f.grid.kStart - halos.getD 2 0)
    let d : Index3 := (f.grid.domain.1 + more d1 + 2 * halos.getD 0 0, f.grid.domain.2.1 + more d2 + 2 * halos.getD 1 0,
      f.grid.domain.2.2 + more d3 + 2 * halos.getD 2 0)
    fromDimsHalo f [d1, d2, d3] halos ext = .ok ⟨f.compareToNumpy, o, d, update (axisDict f.grid o d) ext⟩ := by
  intro o d
  have hod : f.grid.getOriginDomain [d1, d2, d3] halos = .ok ([o.1, o.2.1, o.2.2], [d.1, d.2.1, d.2.2]) := by
    obtain ⟨c1, c2, c3⟩ := axis_cases d1 d2 d3 h1 h2 h3
    have e1 : f.grid.originFromDims [d1, d2, d3] = [f.grid.nHalo, f.grid.nHalo, f.grid.kStart] := by
      rcases c1 with rfl | rfl <;> rcases c2 with rfl | rfl <;> rcases c3 with rfl | rfl <;> rfl
    have e2 : f.grid.domainFromDims [d1, d2, d3] =
        [f.grid.domain.1 + more d1, f.grid.domain.2.1 + more d2, f.grid.domain.2.2 + more d3] := by
      rcases c1 with rfl | rfl <;> rcases c2 with rfl | rfl <;> rcases c3 with rfl | rfl <;>
        simp [GridIndexing.domainFromDims, more, Dim.isInterface]
    unfold GridIndexing.getOriginDomain
    rw [e1, e2]
    show _ = Except.ok ([f.grid.nHalo - halos.getD 0 0, f.grid.nHalo - halos.getD 1 0, f.grid.kStart - halos.getD 2 0],
      [f.grid.domain.1 + more d1 + 2 * halos.getD 0 0, f.grid.domain.2.1 + more d2 + 2 * halos.getD 1 0,
      f.grid.domain.2.2 + more d3 + 2 * halos.getD 2 0])
    clear o d e1 e2
    match halos, hh with
    | [], _ => simp [addHalos, bind, Except.bind]
    | [a], _ => simp [addHalos, bind, Except.bind]; omega
    | [a, b], _ => simp [addHalos, bind, Except.bind]; omega
    | [a, b, c], _ => simp [addHalos, bind, Except.bind]; omega
    | _ :: _ :: _ :: _ :: _, h => exact absurd h (by simp)
  unfold fromDimsHalo
  rw [if_neg (by simp), hod]
  rfl

/-- C108: a stencil for dimensions along the three axes, with at most three numbers of halo points, computes exactly the
rank's own points (one more on interfaces) and the halo points asked for, on the levels of the factory. -/
theorem C108_points {E : Type} (f : Factory) (d1 d2 d3 : Dim) (h1 : d1.isI = true) (h2 : d2.isJ = true) (h3 : d3.isK = true)
    (halos : List Int) (hh : halos.length ≤ 3) (ext : List (String × Ext E)) :
    ∃ s, fromDimsHalo f [d1, d2, d3] halos ext = .ok s ∧ s.compared = f.compareToNumpy ∧
      ∀ i j k, Computes s i j k ↔
        (f.grid.nHalo - halos.getD 0 0 ≤ i ∧ i < f.grid.nHalo + f.grid.domain.1 + more d1 + halos.getD 0 0) ∧
        (f.grid.nHalo - halos.getD 1 0 ≤ j ∧ j < f.grid.nHalo + f.grid.domain.2.1 + more d2 + halos.getD 1 0) ∧
        (f.grid.kStart - halos.getD 2 0 ≤ k ∧ k < f.grid.kStart + f.grid.domain.2.2 + more d3 + halos.getD 2 0) := by
  refine ⟨_, made_eq f d1 d2 d3 h1 h2 h3 halos hh ext, rfl, fun i j k => ?_⟩
  unfold Computes
  simp only
  omega

/-- C108: other numbers of dimensions are refused, and so are dimensions of which one is along no axis. -/
theorem C108_refused {E : Type} (f : Factory) (dims : List Dim) (halos : List Int) (ext : List (String × Ext E))
    (h : dims.length ≠ 3 ∨ ∃ d ∈ dims, d.isI = false ∧ d.isJ = false ∧ d.isK = false) :
    ∃ e, fromDimsHalo f dims halos ext = .error e := by
  unfold fromDimsHalo
  by_cases hl : dims.length ≠ 3
  · exact ⟨_, if_pos hl⟩
  rw [if_neg hl]
  obtain ⟨d, hd, hI, hJ, hK⟩ := h.resolve_left hl
  have hshort : ∀ (ds : List Dim), (f.grid.originFromDims ds).length ≤ ds.length ∧
      (d ∈ ds → (f.grid.originFromDims ds).length < ds.length) := by
    intro ds
    induction ds with
    | nil => exact ⟨Nat.le_refl _, fun h => by cases h⟩
    | cons x ds ih =>
      unfold GridIndexing.originFromDims
      constructor
      · split
        · simpa using ih.1
        · split
          · simpa using ih.1
          · split
            · simpa using ih.1
            · simp only [List.length_cons]; omega
      · intro hx
        rcases List.mem_cons.mp hx with rfl | hx
        · rw [hI, hJ, hK]
          simp only [Bool.false_eq_true, if_false, List.length_cons]
          omega
        · have := ih.2 hx
          split
          · simpa using this
          · split
            · simpa using this
            · split
              · simpa using this
              · simp only [List.length_cons]; omega
  have hadd : ∀ (c : Int) (xs ns r : List Int), addHalos c xs ns = .ok r → r.length = xs.length := by
    intro c xs ns
    induction xs generalizing ns with
    | nil =>
      intro r hr
      cases ns with
      | nil => injection hr with hr; rw [← hr]
      | cons n ns => cases hr
    | cons x xs ih =>
      intro r hr
      cases ns with
      | nil => injection hr with hr; rw [← hr]
      | cons n ns =>
        cases hx : addHalos c xs ns with
        | error e => simp [addHalos, hx, bind, Except.bind] at hr
        | ok r' =>
          simp [addHalos, hx, bind, Except.bind] at hr
          rw [← hr, List.length_cons, List.length_cons, ih ns r' hx]
  cases hg : f.grid.getOriginDomain dims halos with
  | error e => exact ⟨e, rfl⟩
  | ok od =>
    obtain ⟨o, dd⟩ := od
    have ho : o.length ≠ 3 := by
      unfold GridIndexing.getOriginDomain at hg
      cases ha : addHalos (-1) (f.grid.originFromDims dims) halos with
      | error e => simp [ha, bind, Except.bind] at hg
      | ok o' =>
        cases hb : addHalos 2 (f.grid.domainFromDims dims) halos with
        | error e => simp [ha, hb, bind, Except.bind] at hg
        | ok d' =>
          simp [ha, hb, bind, Except.bind] at hg
          rw [← hg.1, hadd _ _ _ _ ha]
          have := (hshort dims).2 hd
          omega
    simp only
    have hc : castIndex3 o = .error .valueError := by
      unfold castIndex3
      split
      · simp at ho
      · rfl
    rw [hc]
    exact ⟨_, rfl⟩

/-- Not so that dimensions are matched with axes: dimensions in the order of the arrays of Fortran programs give the levels'
numbers to the first axis. -/
theorem C108_order_violated :
    ∃ s : Made Nat, fromDimsHalo ⟨false, ⟨(4, 5, 79), 3, true, true, true, true, 0⟩⟩ [.k, .j, .i] [] [] = .ok s ∧
      s.origin = (0, 3, 3) ∧ s.domain = (79, 5, 4) := ⟨_, rfl, rfl, rfl⟩

/-! ### Externals -/

theorem get_dictSet {E : Type} (d : List (String × E)) (k n : String) (v : E) :
    dictGet (dictSet d k v) n = if n = k then some v else dictGet d n := by
  induction d with
  | nil =>
    unfold dictSet dictGet
    by_cases h : n = k
    · subst h; simp
    · have : ¬ k = n := fun e => h e.symm
      simp [h, this]
  | cons e d ih =>
    unfold dictSet
    by_cases he : e.1 = k
    · rw [if_pos he]
      unfold dictGet
      by_cases h : n = k
      · subst h; simp
      · have h' : ¬ k = n := fun e => h e.symm
        have h'' : ¬ e.1 = n := by rw [he]; exact h'
        simp [h, h', h'']
    · rw [if_neg he]
      unfold dictGet at ih ⊢
      by_cases hn : e.1 = n
      · have : ¬ n = k := fun e' => he (hn.trans e')
        simp [hn, this]
      · rw [List.find?_cons_of_neg (by simpa using hn), List.find?_cons_of_neg (by simpa using hn)]
        exact ih

theorem get_update {E : Type} (d e : List (String × E)) (he : (e.map fun x => x.1).Nodup) (n : String) :
    dictGet (update d e) n = (dictGet e n).or (dictGet d n) := by
  unfold update
  induction e generalizing d with
  | nil => simp [dictGet]
  | cons x e ih =>
    rw [List.map_cons, List.nodup_cons] at he
    rw [List.foldl_cons, ih _ he.2, get_dictSet]
    by_cases h : n = x.1
    · subst h
      have h1 : dictGet e x.1 = none := by
        unfold dictGet
        rw [Option.map_eq_none_iff, List.find?_eq_none]
        intro y hy hc
        exact he.1 (List.mem_map.mpr ⟨y, hy, by simpa using hc⟩)
      rw [if_pos rfl, h1]
      simp [dictGet]
    · rw [if_neg h]
      have : ¬ x.1 = n := fun e => h e.symm
      congr 1
      unfold dictGet
      rw [List.find?_cons_of_neg (by simpa using this)]

theorem axis_nodup {E : Type} {g : GridIndexing} {o d : Index3} : ((axisDict (E := E) g o d).map fun x => x.1).Nodup := by
  show ["i_start", "local_is", "i_end", "local_ie", "j_start", "local_js", "j_end", "local_je", "k_start", "k_end"].Nodup
  decide

/-- C108: externals of a stencil from dimensions are the user's and, for names the user does not give, the axis offsets of the
computation. -/
theorem C108_externals {E : Type} (f : Factory) (dims : List Dim) (halos : List Int) (ext : List (String × Ext E))
    (he : (ext.map fun x => x.1).Nodup) (s : Made E) (hs : fromDimsHalo f dims halos ext = .ok s) (n : String) :
    dictGet s.externals n = (dictGet ext n).or (dictGet (axisDict f.grid s.origin s.domain) n) := by
  unfold fromDimsHalo at hs
  by_cases hl : dims.length ≠ 3
  · rw [if_pos hl] at hs; cases hs
  rw [if_neg hl] at hs
  cases hg : f.grid.getOriginDomain dims halos with
  | error e => rw [hg] at hs; cases hs
  | ok od =>
    rw [hg] at hs
    simp only at hs
    cases ho : castIndex3 od.1 with
    | error e => rw [ho] at hs; cases hs
    | ok o =>
      cases hd : castIndex3 od.2 with
      | error e => rw [ho, hd] at hs; cases hs
      | ok d =>
        rw [ho, hd] at hs
        simp only [fromOriginDomain, ho, hd] at hs
        injection hs with hs
        rw [← hs]
        exact get_update _ _ he n

/-- The position along an axis, or the level, that an external stands for in a computation of `size` points from `start`. -/
def Ext.position {E : Type} (start size : Int) : Ext E → Option Int
  | .axis a => some (a.absolute start size)
  | .level k => some k
  | .user _ => none

/-- C108: in a stencil from dimensions, the names the user does not give stand for what they say: `local_is`, `local_ie`, `local_js`
and `local_je` for the first and last cell of the rank, `i_start`, `i_end`, `j_start` and `j_end` for the first and last cell of the
tile where the rank is at that edge, `k_start` and `k_end` for the first and last level computed. -/
theorem C108_names {E : Type} (f : Factory) (dims : List Dim) (halos : List Int) (ext : List (String × Ext E))
    (he : (ext.map fun x => x.1).Nodup) (s : Made E) (hs : fromDimsHalo f dims halos ext = .ok s) :
    let pos (n : String) (start size : Int) := (dictGet s.externals n).bind (Ext.position start size)
    (dictGet ext "local_is" = none → pos "local_is" s.origin.1 s.domain.1 = some f.grid.nHalo) ∧
    (dictGet ext "local_ie" = none → pos "local_ie" s.origin.1 s.domain.1 = some (f.grid.nHalo + f.grid.domain.1 - 1)) ∧
    (dictGet ext "local_js" = none → pos "local_js" s.origin.2.1 s.domain.2.1 = some f.grid.nHalo) ∧
    (dictGet ext "local_je" = none → pos "local_je" s.origin.2.1 s.domain.2.1 = some (f.grid.nHalo + f.grid.domain.2.1 - 1)) ∧
    (dictGet ext "i_start" = none → f.grid.westEdge = true → pos "i_start" s.origin.1 s.domain.1 = some f.grid.nHalo) ∧
    (dictGet ext "i_end" = none → f.grid.eastEdge = true →
      pos "i_end" s.origin.1 s.domain.1 = some (f.grid.nHalo + f.grid.domain.1 - 1)) ∧
    (dictGet ext "j_start" = none → f.grid.southEdge = true → pos "j_start" s.origin.2.1 s.domain.2.1 = some f.grid.nHalo) ∧
    (dictGet ext "j_end" = none → f.grid.northEdge = true →
      pos "j_end" s.origin.2.1 s.domain.2.1 = some (f.grid.nHalo + f.grid.domain.2.1 - 1)) ∧
    (dictGet ext "k_start" = none → dictGet s.externals "k_start" = some (.level s.origin.2.2)) ∧
    (dictGet ext "k_end" = none → dictGet s.externals "k_end" = some (.level (s.origin.2.2 + s.domain.2.2 - 1))) := by
  have hx := C108_externals f dims halos ext he s hs
  obtain ⟨l1, l2, l3, l4, l5, l6⟩ := C70_local_bounds f.grid s.origin s.domain
  obtain ⟨e1, e2, e3, e4⟩ := C70_edges f.grid s.origin s.domain
  refine ⟨?_, ?_, ?_, ?_, ?_, ?_, ?_, ?_, ?_, ?_⟩ <;> intro h <;> (try intro hg) <;> simp only [hx, h] <;>
    simp only [Option.none_or, axisDict, dictGet, List.find?_cons, String.reduceBEq, Option.map_some, Option.bind_some, Ext.position] <;>
    first
      | exact congrArg some l1
      | exact congrArg some l2
      | exact congrArg some l3
      | exact congrArg some l4
      | exact congrArg some (e1 hg)
      | exact congrArg some (e2 hg)
      | exact congrArg some (e3 hg)
      | exact congrArg some (e4 hg)
      | exact congrArg (fun x => some (Ext.level x)) l5
      | exact congrArg (fun x => some (Ext.level x)) l6

/-- C108: stencils with given bounds are made one for each pair, in order, and here the axis offsets win over the user's
externals of the same names. -/
theorem C108_varied {E : Type} (f : Factory) (origins domains : List Index3) (ext : List (String × Ext E)) :
    (origins.length ≠ domains.length → variedBounds f origins domains ext = .error .runtimeError) ∧
    (origins.length = domains.length → ∃ l, variedBounds f origins domains ext = .ok l ∧ l.length = origins.length ∧
      ∀ (n : Nat) (o d : Index3), origins[n]? = some o → domains[n]? = some d → ∃ s, l[n]? = some s ∧
        s.origin = o ∧ s.domain = d ∧ s.compared = f.compareToNumpy ∧
        ∀ x, dictGet s.externals x = (dictGet (axisDict f.grid o d) x).or (dictGet ext x)) := by
  constructor
  · intro h; exact if_pos h
  · intro h
    refine ⟨_, if_neg (by omega), by simp [h], fun n o d ho hd => ?_⟩
    refine ⟨_, by rw [List.getElem?_map, List.getElem?_zip_eq_some (z := (o, d)) |>.mpr ⟨ho, hd⟩]; rfl, rfl, rfl, rfl, fun x => ?_⟩
    exact get_update _ _ axis_nodup x

/-- Not so that both ways agree: an external `i_start` of the user is kept by one and replaced by the other. -/
theorem C108_varied_violated :
    ∃ (f : Factory) (s : Made Nat) (l : List (Made Nat)), fromDimsHalo f [.i, .j, .k] [] [("i_start", .user 7)] = .ok s ∧
      variedBounds f [s.origin] [s.domain] [("i_start", .user 7)] = .ok l ∧
      dictGet s.externals "i_start" = some (.user 7) ∧ l.map (fun t => dictGet t.externals "i_start") = [some (.axis (.fromStart 0))] :=
  ⟨⟨false, ⟨(4, 5, 79), 3, true, true, true, true, 0⟩⟩, _, _, rfl, rfl, by decide +kernel, by decide +kernel⟩

/-! ### All ranks of a tile -/

/-- Places of ranks in the layout. -/
theorem rank_place (p : TilePart) (hx : 0 < p.layout.2) (hy : 0 < p.layout.1) (px py : Int)
    (h1 : 0 ≤ px) (h2 : px < p.layout.2) (h3 : 0 ≤ py) (h4 : py < p.layout.1) :
    (0 ≤ py * p.layout.2 + px ∧ py * p.layout.2 + px < p.totalRanks) ∧ p.subtileIndex (py * p.layout.2 + px) = (py, px) := by
  obtain ⟨⟨ly, lx⟩⟩ := p
  unfold TilePart.subtileIndex TilePart.totalRanks NDSL.subtileIndex
  simp only at *
  have hb : py * lx + px < ly * lx := by nlinarith
  have h0 : 0 ≤ py * lx + px := by nlinarith
  refine ⟨⟨h0, hb⟩, ?_⟩
  rw [Int.emod_eq_of_lt h0 hb]
  have e1 : (py * lx + px) / lx = py := by
    rw [Int.add_comm, Int.add_mul_ediv_right _ _ (by omega), Int.ediv_eq_zero_of_lt h1 h2]; omega
  have e2 : (py * lx + px) % lx = px := by
    rw [Int.add_comm, Int.add_mul_emod_self_right, Int.emod_eq_of_lt h1 h2]
  rw [e1, e2]

theorem place_bounds (p : TilePart) (hx : 0 < p.layout.2) (hy : 0 < p.layout.1) (rank : Int) (h0 : 0 ≤ rank) (h1 : rank < p.totalRanks) :
    0 ≤ (p.subtileIndex rank).2 ∧ (p.subtileIndex rank).2 < p.layout.2 ∧ 0 ≤ (p.subtileIndex rank).1 ∧
      (p.subtileIndex rank).1 < p.layout.1 ∧ rank = (p.subtileIndex rank).1 * p.layout.2 + (p.subtileIndex rank).2 := by
  obtain ⟨⟨ly, lx⟩⟩ := p
  unfold TilePart.subtileIndex NDSL.subtileIndex TilePart.totalRanks at *
  simp only at *
  rw [Int.emod_eq_of_lt h0 h1]
  have e := Int.emod_add_mul_ediv rank lx
  refine ⟨Int.emod_nonneg _ (by omega), Int.emod_lt_of_pos _ hx, Int.ediv_nonneg h0 (by omega), ?_, by nlinarith⟩
  exact Int.ediv_lt_of_lt_mul hx h1

theorem block_unique {n a a' b b' : Int} (h : a * n + b = a' * n + b') (hb : 0 ≤ b) (hb' : 0 ≤ b') (hn : b < n) (hn' : b' < n) :
    a = a' ∧ b = b' := by
  have h1 : a = (a * n + b) / n := by
    rw [Int.add_comm, Int.add_mul_ediv_right _ _ (by omega), Int.ediv_eq_zero_of_lt hb hn]; omega
  have h2 : a' = (a' * n + b') / n := by
    rw [Int.add_comm, Int.add_mul_ediv_right _ _ (by omega), Int.ediv_eq_zero_of_lt hb' hn']; omega
  have : a = a' := by rw [h1, h2, h]
  subst this
  exact ⟨rfl, by omega⟩

/-- C108: the stencil made on every rank of a tile for cells and no halos computes every cell of the tile, on exactly one rank
and at one place there. -/
theorem C108_cover {E : Type} (compare : Bool) (s : Sizer) (p : TilePart) (hlx : 0 < p.layout.2) (hly : 0 < p.layout.1)
    (hnx : 0 < s.nx) (hny : 0 < s.ny) (ext : List (String × Ext E)) (gi gj k : Int)
    (hi : 0 ≤ gi ∧ gi < p.layout.2 * s.nx) (hj : 0 ≤ gj ∧ gj < p.layout.1 * s.ny) (hk : 0 ≤ k ∧ k < s.nz) :
    ∃ rank i j, (0 ≤ rank ∧ rank < p.totalRanks) ∧
      (∃ st, fromDimsHalo ⟨compare, gridOf s p rank⟩ [.i, .j, .k] [] ext = .ok st ∧ Computes st i j k) ∧
      tileI s p rank i = gi ∧ tileJ s p rank j = gj ∧
      ∀ rank' i' j', 0 ≤ rank' → rank' < p.totalRanks →
        (∃ st, fromDimsHalo ⟨compare, gridOf s p rank'⟩ [.i, .j, .k] [] ext = .ok st ∧ Computes st i' j' k) →
        tileI s p rank' i' = gi → tileJ s p rank' j' = gj → rank' = rank ∧ i' = i ∧ j' = j := by
  have comp : ∀ (rank i j : Int), (∃ st, fromDimsHalo ⟨compare, gridOf s p rank⟩ [.i, .j, .k] [] ext = .ok st ∧ Computes st i j k) ↔
      (s.nHalo ≤ i ∧ i < s.nHalo + s.nx) ∧ (s.nHalo ≤ j ∧ j < s.nHalo + s.ny) := by
    intro rank i j
    obtain ⟨st, h1, -, h3⟩ := C108_points ⟨compare, gridOf s p rank⟩ .i .j .k rfl rfl rfl [] (by simp) ext
    have h3' := h3 i j k
    simp only [gridOf, more, Dim.isInterface, List.getD_nil] at h3'
    constructor
    · rintro ⟨st', h, hc⟩
      rw [h1] at h
      injection h with h
      subst h
      have := h3'.mp hc
      simp at this
      omega
    · intro h
      exact ⟨st, h1, h3'.mpr (by simp; omega)⟩
  have ei := Int.emod_add_mul_ediv gi s.nx
  have ej := Int.emod_add_mul_ediv gj s.ny
  have bi := Int.emod_nonneg gi (show s.nx ≠ 0 by omega)
  have bi' := Int.emod_lt_of_pos gi hnx
  have bj := Int.emod_nonneg gj (show s.ny ≠ 0 by omega)
  have bj' := Int.emod_lt_of_pos gj hny
  obtain ⟨hr, hsub⟩ := rank_place p hlx hly (gi / s.nx) (gj / s.ny) (Int.ediv_nonneg hi.1 (by omega))
    (Int.ediv_lt_of_lt_mul hnx hi.2) (Int.ediv_nonneg hj.1 (by omega)) (Int.ediv_lt_of_lt_mul hny hj.2)
  refine ⟨gj / s.ny * p.layout.2 + gi / s.nx, s.nHalo + gi % s.nx, s.nHalo + gj % s.ny, hr, (comp _ _ _).mpr (by omega), ?_, ?_, ?_⟩
  · unfold tileI; rw [hsub]; simp only; rw [Int.mul_comm]; omega
  · unfold tileJ; rw [hsub]; simp only; rw [Int.mul_comm]; omega
  · intro rank' i' j' h0 h1 hc hti htj
    have hb := (comp _ _ _).mp hc
    obtain ⟨_, _, _, _, hrank⟩ := place_bounds p hlx hly rank' h0 h1
    unfold tileI at hti
    unfold tileJ at htj
    have u1 := block_unique (n := s.nx) (a := (p.subtileIndex rank').2) (a' := gi / s.nx) (b := i' - s.nHalo) (b' := gi % s.nx)
      (by rw [hti, Int.mul_comm]; omega) (by omega) bi (by omega) bi'
    have u2 := block_unique (n := s.ny) (a := (p.subtileIndex rank').1) (a' := gj / s.ny) (b := j' - s.nHalo) (b' := gj % s.ny)
      (by rw [htj, Int.mul_comm]; omega) (by omega) bj (by omega) bj'
    refine ⟨?_, by omega, by omega⟩
    rw [hrank, u1.1, u2.1]

/-- C108: with halos smaller than the ranks' part of a tile, a point that a stencil computes is on the index `i_start`, `i_end`,
`j_start` or `j_end` if and only if its place in the tile is in the first or last column or row of cells. -/
theorem C108_edges (s : Sizer) (p : TilePart) (hlx : 0 < p.layout.2) (hly : 0 < p.layout.1) (rank : Int)
    (hr0 : 0 ≤ rank) (hr1 : rank < p.totalRanks) (d1 d2 d3 : Dim) (h1 : d1.isI = true) (h2 : d2.isJ = true) (h3 : d3.isK = true)
    (hI hJ hK : Int) (hi : 0 ≤ hI ∧ hI < s.nx) (hj : 0 ≤ hJ ∧ hJ < s.ny) (hd1 : d1.isInterface = true → hI + 1 < s.nx)
    (hd2 : d2.isInterface = true → hJ + 1 < s.ny) (compare : Bool) (E : Type) (st : Made E)
    (hs : fromDimsHalo ⟨compare, gridOf s p rank⟩ [d1, d2, d3] [hI, hJ, hK] [] = .ok st) (i j k : Int) (hc : Computes st i j k) :
    let a := axisOffsets (gridOf s p rank) st.origin st.domain
    (a.iStart.absolute st.origin.1 st.domain.1 = i ↔ tileI s p rank i = 0) ∧
    (a.iEnd.absolute st.origin.1 st.domain.1 = i ↔ tileI s p rank i = p.layout.2 * s.nx - 1) ∧
    (a.jStart.absolute st.origin.2.1 st.domain.2.1 = j ↔ tileJ s p rank j = 0) ∧
    (a.jEnd.absolute st.origin.2.1 st.domain.2.1 = j ↔ tileJ s p rank j = p.layout.1 * s.ny - 1) := by
  rw [made_eq ⟨compare, gridOf s p rank⟩ d1 d2 d3 h1 h2 h3 [hI, hJ, hK] (by simp) []] at hs
  injection hs with hs
  have ho : st.origin = (s.nHalo - hI, s.nHalo - hJ, 0 - hK) := by rw [← hs]; rfl
  have hd : st.domain = (s.nx + more d1 + 2 * hI, s.ny + more d2 + 2 * hJ, s.nz + more d3 + 2 * hK) := by rw [← hs]; rfl
  clear hs
  obtain ⟨b1, b2, b3, b4, -⟩ := place_bounds p hlx hly rank hr0 hr1
  obtain ⟨⟨c1, c2⟩, ⟨c3, c4⟩, -⟩ := hc
  have m1 : hI + more d1 < s.nx := by
    unfold more
    split
    · rename_i h; exact hd1 h
    · omega
  have m2 : hJ + more d2 < s.ny := by
    unfold more
    split
    · rename_i h; exact hd2 h
    · omega
  obtain ⟨e1, e2, e3, e4⟩ := C70_edges (gridOf s p rank) st.origin st.domain
  obtain ⟨n1, n2, n3, n4⟩ : _ ∧ _ ∧ _ ∧ _ := ⟨
    fun q => (C70_no_edge (gridOf s p rank) st.origin st.domain 0 i (by omega)).1 q c1 c2,
    fun q => (C70_no_edge (gridOf s p rank) st.origin st.domain 0 i (by omega)).2.1 q c1 c2,
    fun q => (C70_no_edge (gridOf s p rank) st.origin st.domain 0 j (by omega)).2.2.1 q c3 c4,
    fun q => (C70_no_edge (gridOf s p rank) st.origin st.domain 0 j (by omega)).2.2.2 q c3 c4⟩
  have plus0 : ∀ a : AxisIndex, a.plus 0 = a := by
    intro a; cases a <;> simp [AxisIndex.plus]
  rw [plus0] at n1 n2 n3 n4
  have w1 : (gridOf s p rank).westEdge = true ↔ (p.subtileIndex rank).2 = 0 := by simp [gridOf, TilePart.onLeft, onTileLeft]
  have w2 : (gridOf s p rank).eastEdge = true ↔ (p.subtileIndex rank).2 = p.layout.2 - 1 := by
    simp [gridOf, TilePart.onRight, onTileRight]
  have w3 : (gridOf s p rank).southEdge = true ↔ (p.subtileIndex rank).1 = 0 := by simp [gridOf, TilePart.onBottom, onTileBottom]
  have w4 : (gridOf s p rank).northEdge = true ↔ (p.subtileIndex rank).1 = p.layout.1 - 1 := by
    simp [gridOf, TilePart.onTop, onTileTop]
  simp only [ho, hd] at c1 c2 c3 c4
  have g1 : (gridOf s p rank).nHalo = s.nHalo := rfl
  have g2 : (gridOf s p rank).domain = (s.nx, s.ny, s.nz) := rfl
  rw [g1] at e1 e2 e3 e4
  rw [g2] at e2 e4
  simp only at e1 e2 e3 e4
  unfold tileI tileJ
  refine ⟨?_, ?_, ?_, ?_⟩
  · by_cases h : (p.subtileIndex rank).2 = 0
    · rw [e1 (w1.mpr h), h]; omega
    · have := n1 (by rw [← Bool.not_eq_true]; exact fun q => h (w1.mp q))
      refine ⟨fun q => absurd q this, fun q => ?_⟩
      have : 1 * s.nx ≤ (p.subtileIndex rank).2 * s.nx := Int.mul_le_mul_of_nonneg_right (by omega) (by omega)
      omega
  · by_cases h : (p.subtileIndex rank).2 = p.layout.2 - 1
    · rw [e2 (w2.mpr h), h]
      have : (p.layout.2 - 1) * s.nx = p.layout.2 * s.nx - s.nx := by ring
      omega
    · have := n2 (by rw [← Bool.not_eq_true]; exact fun q => h (w2.mp q))
      refine ⟨fun q => absurd q this, fun q => ?_⟩
      have : (p.subtileIndex rank).2 * s.nx ≤ (p.layout.2 - 2) * s.nx := Int.mul_le_mul_of_nonneg_right (by omega) (by omega)
      have : (p.layout.2 - 2) * s.nx = p.layout.2 * s.nx - 2 * s.nx := by ring
      omega
  · by_cases h : (p.subtileIndex rank).1 = 0
    · rw [e3 (w3.mpr h), h]; omega
    · have := n3 (by rw [← Bool.not_eq_true]; exact fun q => h (w3.mp q))
      refine ⟨fun q => absurd q this, fun q => ?_⟩
      have : 1 * s.ny ≤ (p.subtileIndex rank).1 * s.ny := Int.mul_le_mul_of_nonneg_right (by omega) (by omega)
      omega
  · by_cases h : (p.subtileIndex rank).1 = p.layout.1 - 1
    · rw [e4 (w4.mpr h), h]
      have : (p.layout.1 - 1) * s.ny = p.layout.1 * s.ny - s.ny := by ring
      omega
    · have := n4 (by rw [← Bool.not_eq_true]; exact fun q => h (w4.mp q))
      refine ⟨fun q => absurd q this, fun q => ?_⟩
      have : (p.subtileIndex rank).1 * s.ny ≤ (p.layout.1 - 2) * s.ny := Int.mul_le_mul_of_nonneg_right (by omega) (by omega)
      have : (p.layout.1 - 2) * s.ny = p.layout.1 * s.ny - 2 * s.ny := by ring
      omega

/-- Not so for wider halos: with three cells for each rank and three halo points the second rank computes a point in the first
column of the tile, which is on no index of an edge there. -/
theorem C108_edges_violated :
    ∃ (s : Sizer) (p : TilePart) (st : Made Nat), fromDimsHalo ⟨false, gridOf s p 1⟩ [.i, .j, .k] [3, 3] [] = .ok st ∧
      Computes st 0 3 0 ∧ tileI s p 1 0 = 0 ∧
      (axisOffsets (gridOf s p 1) st.origin st.domain).iStart.absolute st.origin.1 st.domain.1 ≠ 0 :=
  ⟨⟨3, 3, 4, 3, [], false⟩, ⟨(1, 2)⟩, _, rfl, by unfold Computes; decide, by decide, by decide⟩

/-- C108: a factory restricted to `nk` levels from `k0` on makes stencils that compute these levels of the first. -/
theorem C108_restrict {E : Type} (f f' : Factory) (k0 nk : Int) (h : restrictVertical f k0 (some nk) = .ok f')
    (ext : List (String × Ext E)) :
    ∃ s s', fromDimsHalo f [.i, .j, .k] [] ext = .ok s ∧ fromDimsHalo f' [.i, .j, .k] [] ext = .ok s' ∧
      ∀ i j k, Computes s' i j k ↔ Computes s i j k ∧ f.grid.kStart + k0 ≤ k ∧ k < f.grid.kStart + k0 + nk := by
  unfold restrictVertical GridIndexing.restrictVertical at h
  by_cases h1 : k0 < 0
  · rw [if_pos h1] at h; cases h
  rw [if_neg h1] at h
  by_cases h2 : k0 > f.grid.domain.2.2
  · rw [if_pos h2] at h; cases h
  rw [if_neg h2] at h
  simp only at h
  by_cases h3 : nk < 0
  · rw [if_pos h3] at h; cases h
  rw [if_neg h3] at h
  by_cases h4 : nk > f.grid.domain.2.2 - k0
  · rw [if_pos h4] at h; cases h
  rw [if_neg h4] at h
  injection h with h
  obtain ⟨s, hs, -, hc⟩ := C108_points f .i .j .k rfl rfl rfl [] (by simp) ext
  obtain ⟨s', hs', -, hc'⟩ := C108_points f' .i .j .k rfl rfl rfl [] (by simp) ext
  refine ⟨s, s', hs, hs', fun i j k => ?_⟩
  rw [hc, hc', ← h]
  simp [more, Dim.isInterface]
  omega

/-! ### Reports -/

theorem collect_eq (infos : List (String × List (String × ℚ))) (second : String) (keys : List String) (data : List (String × ℚ)) :
    collect infos second keys = .ok data ↔ data.map (fun d => d.1) = keys ∧
      ∀ d ∈ data, ∃ info, dictGet infos d.1 = some info ∧ dictGet info second = some d.2 := by
  induction keys generalizing data with
  | nil =>
    constructor
    · intro h
      injection h with h
      subst h; simp
    · rintro ⟨h, -⟩
      have : data = [] := by simpa using h
      subst this; rfl
  | cons k ks ih =>
    unfold collect
    constructor
    · intro h
      cases hb : (dictGet infos k).bind fun i => dictGet i second with
      | none => rw [hb] at h; cases h
      | some v =>
        rw [hb] at h
        cases hc : collect infos second ks with
        | error e => rw [hc] at h; cases h
        | ok rest =>
          rw [hc] at h
          injection h with h
          subst h
          obtain ⟨h1, h2⟩ := (ih rest).mp hc
          refine ⟨by rw [List.map_cons, h1], fun d hd => ?_⟩
          rcases List.mem_cons.mp hd with rfl | hd
          · obtain ⟨info, hi1, hi2⟩ := Option.bind_eq_some_iff.mp hb
            exact ⟨info, hi1, hi2⟩
          · exact h2 d hd
    · rintro ⟨h1, h2⟩
      cases data with
      | nil => cases h1
      | cons d data =>
        rw [List.map_cons] at h1
        injection h1 with hk hks
        obtain ⟨info, hi1, hi2⟩ := h2 d List.mem_cons_self
        have hb : ((dictGet infos k).bind fun i => dictGet i second) = some d.2 := by
          rw [← hk, hi1]; exact hi2
        rw [hb, (ih data).mpr ⟨hks, fun x hx => h2 x (List.mem_cons_of_mem _ hx)⟩, ← hk]
        rfl

/-- A bar as long as its share of the largest value. -/
def barOf (o : Options) (max v : ℚ) : Option Nat :=
  if o.showBar && decide (max > 0) then some (v / max * o.barWidth).floor.toNat else none

theorem lines_eq (o : Options) (max : ℚ) (data : List (String × ℚ)) (h : ∀ d ∈ data, d.1.length ≤ o.nameWidth) :
    lines o max data = .ok (data.map fun d => ⟨d.1, d.2, barOf o max d.2⟩) := by
  induction data with
  | nil => rfl
  | cons d data ih =>
    unfold lines line
    rw [if_neg (by have := h d List.mem_cons_self; omega), ih fun x hx => h x (List.mem_cons_of_mem _ hx)]
    rfl

theorem lines_long (o : Options) (max : ℚ) (data : List (String × ℚ)) (h : ∃ d ∈ data, d.1.length > o.nameWidth) :
    lines o max data = .error .valueError := by
  induction data with
  | nil => obtain ⟨d, hd, _⟩ := h; cases hd
  | cons d data ih =>
    unfold lines line
    by_cases hl : d.1.length > o.nameWidth
    · rw [if_pos hl]
    · rw [if_neg hl]
      obtain ⟨x, hx, hxl⟩ := h
      rcases List.mem_cons.mp hx with rfl | hx
      · exact absurd hxl hl
      · simp only
        rw [ih ⟨x, hx, hxl⟩]
        rfl

theorem sort_pairwise (reverse : Bool) (data : List (String × ℚ)) :
    (sortData reverse data).Pairwise fun a b => if reverse then b.2 ≤ a.2 else a.2 ≤ b.2 := by
  have := List.pairwise_mergeSort (le := fun a b : String × ℚ => if reverse then decide (b.2 ≤ a.2) else decide (a.2 ≤ b.2))
    (fun a b c hab hbc => by cases reverse <;> simp at * <;> linarith)
    (fun a b => by cases reverse <;> simp <;> exact le_total _ _) data
  unfold sortData
  refine this.imp fun h => ?_
  cases reverse <;> simpa using h

/-- C108: a report of stencils with names that fit has one line for each with its value, sorted, and the sum of all values. With
bars and a positive largest value, the bars of values that are not negative are in proportion: the largest has the full width,
none is longer, and a larger value has no shorter bar. -/
theorem C108_report (o : Options) (ho : 10 < o.nameWidth) (infos : List (String × List (String × ℚ))) (second : String)
    (data : List (String × ℚ)) (hne : data ≠ [])
    (hd : ∀ d ∈ data, ∃ info, dictGet infos d.1 = some info ∧ dictGet info second = some d.2)
    (hname : ∀ d ∈ data, d.1.length ≤ o.nameWidth) :
    ∃ r, showReport o infos (data.map fun d => d.1) second = .ok r ∧ r.total = (data.map fun d => d.2).sum ∧
      (r.lines.map fun l => (l.name, l.value)).Perm data ∧
      (r.lines.Pairwise fun a b => if o.reverse then b.value ≤ a.value else a.value ≤ b.value) ∧
      ∀ m ∈ data, (∀ d ∈ data, d.2 ≤ m.2) → o.showBar = true → 0 < m.2 →
        (∀ l ∈ r.lines, ∃ n, l.bar = some n ∧ n ≤ o.barWidth ∧ (l.value = m.2 → n = o.barWidth)) ∧
        ∀ l ∈ r.lines, ∀ l' ∈ r.lines, l.value ≤ l'.value → ∀ n n', l.bar = some n → l'.bar = some n' → n ≤ n' := by
  have hc : collect infos second (data.map fun d => d.1) = .ok data := (collect_eq _ _ _ _).mpr ⟨rfl, hd⟩
  have hperm : (sortData o.reverse data).Perm data := List.mergeSort_perm _ _
  have hsorted := sort_pairwise o.reverse data
  obtain ⟨m, hm, hmem, hmax⟩ : ∃ m, (if o.reverse then (sortData o.reverse data).head? else (sortData o.reverse data).getLast?) = some m ∧
      m ∈ data ∧ ∀ d ∈ data, d.2 ≤ m.2 := by
    have hne' : sortData o.reverse data ≠ [] := fun e => hne (by rw [e] at hperm; exact hperm.nil_eq.symm)
    cases hr : o.reverse with
    | true =>
      rw [hr] at hsorted hne' hperm
      cases hl : sortData true data with
      | nil => exact absurd hl hne'
      | cons m rest =>
        rw [hl] at hsorted hperm
        refine ⟨m, rfl, hperm.mem_iff.mp List.mem_cons_self, fun d hd' => ?_⟩
        rcases List.mem_cons.mp (hperm.mem_iff.mpr hd') with rfl | hd'
        · exact le_refl _
        · simpa using (List.pairwise_cons.mp hsorted).1 d hd'
    | false =>
      rw [hr] at hsorted hne' hperm
      obtain ⟨rest, m, hl⟩ := (List.eq_nil_or_concat (sortData false data)).resolve_left hne'
      rw [List.concat_eq_append] at hl
      rw [hl] at hsorted hperm
      refine ⟨m, by rw [hl]; simp, hperm.mem_iff.mp (by simp), fun d hd' => ?_⟩
      rcases List.mem_append.mp (hperm.mem_iff.mpr hd') with hd' | hd'
      · simpa using (List.pairwise_append.mp hsorted).2.2 d hd' m (by simp)
      · have : d = m := by simpa using hd'
        rw [this]
  refine ⟨⟨(data.map fun d => d.2).sum, (sortData o.reverse data).map fun d => ⟨d.1, d.2, barOf o m.2 d.2⟩⟩, ?_, rfl, ?_, ?_, ?_⟩
  · unfold showReport
    rw [if_neg (by omega), hc]
    simp only
    rw [hm]
    simp only
    rw [lines_eq o m.2 _ fun d hd' => hname d (hperm.mem_iff.mp hd')]
    rfl
  · rw [List.map_map]
    have : ((fun l : Line => (l.name, l.value)) ∘ fun d : String × ℚ => (⟨d.1, d.2, barOf o m.2 d.2⟩ : Line)) = id := by
      funext d; rfl
    rw [this, List.map_id]
    exact hperm
  · rw [List.pairwise_map]
    exact hsorted
  · intro m' hm' hmax' hbar hpos
    have e : m'.2 = m.2 := le_antisymm (hmax m' hm') (hmax' m hmem)
    rw [e] at hpos ⊢
    have hb : ∀ v, barOf o m.2 v = some (v / m.2 * o.barWidth).floor.toNat := by
      intro v
      unfold barOf
      rw [hbar, decide_eq_true hpos]; rfl
    have hmono : ∀ v w : ℚ, v ≤ w → (v / m.2 * o.barWidth).floor.toNat ≤ (w / m.2 * o.barWidth).floor.toNat := by
      intro v w hvw
      apply Int.toNat_le_toNat
      apply Rat.floor_monotone
      apply mul_le_mul_of_nonneg_right _ (Nat.cast_nonneg _)
      rw [div_le_div_iff_of_pos_right hpos]
      exact hvw
    have hfull : (m.2 / m.2 * o.barWidth).floor.toNat = o.barWidth := by
      rw [div_self (ne_of_gt hpos), one_mul]
      have : ((o.barWidth : ℕ) : ℚ) = ((o.barWidth : Int) : ℚ) := (Int.cast_natCast _).symm
      rw [this, Rat.floor_intCast]
      rfl
    constructor
    · intro l hl
      obtain ⟨d, hd', rfl⟩ := List.mem_map.mp hl
      refine ⟨_, hb d.2, ?_, fun hv => ?_⟩
      · exact (hmono d.2 m.2 (hmax d (hperm.mem_iff.mp hd'))).trans (by rw [hfull])
      · simp only at hv
        rw [hv, hfull]
    · intro l hl l' hl' hv n n' hn hn'
      obtain ⟨d, hd', rfl⟩ := List.mem_map.mp hl
      obtain ⟨d', hd'', rfl⟩ := List.mem_map.mp hl'
      simp only [hb, Option.some.injEq] at hn hn'
      rw [← hn, ← hn']
      exact hmono _ _ hv

/-- C108: a stencil is in the report of times to build it with what was recorded last under its name. -/
theorem C108_built (c : Collector) (name n : String) (info : List (String × ℚ)) :
    dictGet (built c name info).build n = if n = name then some info else dictGet c.build n := get_dictSet _ _ _ _

/-- Not so with no stencils: the report raises an error, -/
theorem C108_none_violated (o : Options) (ho : 10 < o.nameWidth) (c : Collector) (h : c.build = []) (key : String) :
    buildReport o c key = .error .indexError ∧ execReport o c key = .error .indexError := by
  unfold buildReport execReport showReport
  rw [h, if_neg (by omega), if_neg (by omega)]
  have hs : sortData o.reverse [] = [] := by unfold sortData; exact List.mergeSort_nil
  simp only [List.map_nil, collect, hs]
  cases o.reverse <;> exact ⟨rfl, rfl⟩

/-- or with a stencil that was built and not run: the report of times to run raises an error, -/
theorem C108_unused_violated (o : Options) (ho : 10 < o.nameWidth) (c : Collector) (name : String) (info : List (String × ℚ))
    (hb : (name, info) ∈ c.build) (he : dictGet c.exec name = none) (key : String) : execReport o c key = .error .keyError := by
  have hcol : ∀ keys : List String, name ∈ keys → collect c.exec key keys = .error .keyError := by
    intro keys hk
    induction keys with
    | nil => cases hk
    | cons k ks ih =>
      unfold collect
      cases hv : (dictGet c.exec k).bind fun i => dictGet i key with
      | none => rfl
      | some v =>
        rcases List.mem_cons.mp hk with rfl | hk
        · rw [he] at hv; cases hv
        · simp only
          rw [ih hk]
          rfl
  unfold execReport showReport
  rw [if_neg (by omega), hcol _ (List.mem_map.mpr ⟨_, hb, rfl⟩)]

/-- or with a name longer than the width: the end of the name is formatted as a number, which raises an error. -/
theorem C108_long_violated (o : Options) (ho : 10 < o.nameWidth) (infos : List (String × List (String × ℚ))) (second : String)
    (data : List (String × ℚ))
    (hd : ∀ d ∈ data, ∃ info, dictGet infos d.1 = some info ∧ dictGet info second = some d.2)
    (hname : ∃ d ∈ data, d.1.length > o.nameWidth) :
    showReport o infos (data.map fun d => d.1) second = .error .valueError := by
  have hc : collect infos second (data.map fun d => d.1) = .ok data := (collect_eq _ _ _ _).mpr ⟨rfl, hd⟩
  have hperm : (sortData o.reverse data).Perm data := List.mergeSort_perm _ _
  obtain ⟨d, hd', hl⟩ := hname
  have hmem := hperm.mem_iff.mpr hd'
  unfold showReport
  rw [if_neg (by omega), hc]
  simp only
  have hlong : ∀ m, lines o m (sortData o.reverse data) = .error .valueError := fun m => lines_long o m _ ⟨d, hmem, hl⟩
  cases hr : (if o.reverse = true then (sortData o.reverse data).head? else (sortData o.reverse data).getLast?) with
  | some m =>
    simp only
    rw [hlong]
    rfl
  | none =>
    exfalso
    have : sortData o.reverse data = [] := by
      split at hr
      · exact List.head?_eq_none_iff.mp hr
      · exact List.getLast?_eq_none_iff.mp hr
    rw [this] at hmem
    cases hmem

/-- Not so for two stencils of one name, as all that are built late have: the total is that of the last. -/
theorem C108_name_violated :
    (buildReport {} (built (built ⟨[], []⟩ "LazyStencil" [("build_time", 3)]) "LazyStencil" [("build_time", 1)]) "build_time").map
      (fun r => r.total) = .ok 1 := by decide +kernel

/-! ### Examples -/

example : ∃ s : Made Nat, fromDimsHalo ⟨false, ⟨(4, 5, 79), 3, true, false, false, true, 0⟩⟩ [.i, .jInterface, .k] [1] [] = .ok s ∧
    s.origin = (2, 3, 0) ∧ s.domain = (6, 6, 79) := ⟨_, rfl, rfl, rfl⟩
example : restrictVertical ⟨false, ⟨(4, 5, 79), 3, true, false, false, true, 0⟩⟩ 10 (some 5) =
    .ok ⟨false, ⟨(4, 5, 5), 3, true, false, false, true, 10⟩⟩ := rfl
/-- Two ranks side by side: `C108_cover`, `C108_edges`. -/
example : tileI ⟨4, 4, 1, 3, [], false⟩ ⟨(1, 2)⟩ 1 3 = 4 ∧ (gridOf ⟨4, 4, 1, 3, [], false⟩ ⟨(1, 2)⟩ 1).eastEdge = true := by decide
/-- A report of two stencils: `C108_report`. -/
example : ∃ r, showReport {} [("a", [("t", 1)]), ("b", [("t", 2)])] ["a", "b"] "t" = .ok r ∧ r.total = 3 := by
  obtain ⟨r, h, ht, -⟩ := C108_report {} (by decide) [("a", [("t", 1)]), ("b", [("t", 2)])] "t" [("a", 1), ("b", 2)] (by simp)
    (by intro d hd
        rcases List.mem_cons.mp hd with rfl | hd
        · exact ⟨_, rfl, rfl⟩
        · have : d = ("b", 2) := by simpa using hd
          subst this
          exact ⟨_, rfl, rfl⟩)
    (by intro d hd
        rcases List.mem_cons.mp hd with rfl | hd
        · decide
        · have : d = ("b", 2) := by simpa using hd
          subst this
          decide)
  exact ⟨r, h, by rw [ht]; decide +kernel⟩

end NDSL.StencilFactory
