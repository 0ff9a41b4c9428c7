import Verif.Model.EdgeLengths
import Verif.Props.DGrid
import Verif.Props.UnsignedHalo

/-! Property C147: lengths of cell edges in the halo are distances of corners in the halo. -/
namespace NDSL
open Sphere (Placed unit stretched shift rankGrid OnSurface)

/-! ### Distances -/

theorem lonLatDist_comm (R : ℝ) (p q : ℝ × ℝ) : lonLatDist R p q = lonLatDist R q p := by
  unfold lonLatDist Sphere.distLonLat Sphere.beta
  have e : ∀ x y : ℝ, Real.sin ((x - y) / 2) ^ 2 = Real.sin ((y - x) / 2) ^ 2 := by
    intro x y
    have : (x - y) / 2 = -((y - x) / 2) := by ring
    rw [this, Real.sin_neg]; ring
  rw [e p.2 q.2, e p.1 q.1, mul_comm (Real.cos p.2)]

theorem lonLatDist_nonneg (R : ℝ) (hR : 0 ≤ R) (p q : ℝ × ℝ) : 0 ≤ lonLatDist R p q := by
  unfold lonLatDist Sphere.distLonLat Sphere.beta
  have := Real.arcsin_nonneg.mpr (Real.sqrt_nonneg
    (Real.sin ((p.2 - q.2) / 2) ^ 2 + Real.cos p.2 * Real.cos q.2 * Real.sin ((p.1 - q.1) / 2) ^ 2))
  positivity

/-! ### The ends of edges -/

/-- Half an edge along x, or along y. -/
def halfStep (c : Bool) : Int × Int := if c then (0, 1) else (1, 0)

theorem onCube_ends (c : Bool) (L t u v : Int) :
    onCube L t (u + (halfStep c).1) (v + (halfStep c).2) = (onCube L t u v).add (part c ((frame t).ex, (frame t).ey)) ∧
    onCube L t (u - (halfStep c).1) (v - (halfStep c).2) = (onCube L t u v).add (part c ((frame t).ex, (frame t).ey)).neg := by
  unfold onCube
  generalize frame t = f
  cases c <;> simp [halfStep, part, V3.add, V3.smul, V3.neg] <;> refine ⟨⟨?_, ?_, ?_⟩, ?_, ?_, ?_⟩ <;> ring

theorem fold_east (L t u v : Int) (hL : 0 < L) (hu : L ≤ u) (hv : -L ≤ v) (hv' : v ≤ L) :
    fold L t u v = some (((frame t).ex.smul L).add (((frame t).nrm.smul (L - (u - L))).add ((frame t).ey.smul v))) := by
  unfold fold
  simp only
  rw [if_neg (by omega)]
  (repeat' split) <;> (try (exfalso; omega)) <;> (try rfl)
  all_goals
    unfold onCube
    generalize frame t = f
    simp only [Option.some.injEq, V3.add, V3.smul, V3.mk.injEq]
    first
      | (have : u = L := by omega
         subst this; refine ⟨?_, ?_, ?_⟩ <;> ring)
      | (have : u = -L := by omega
         subst this; refine ⟨?_, ?_, ?_⟩ <;> ring)
      | (have : v = L := by omega
         subst this; refine ⟨?_, ?_, ?_⟩ <;> ring)
      | (have : v = -L := by omega
         subst this; refine ⟨?_, ?_, ?_⟩ <;> ring)

theorem fold_west (L t u v : Int) (hL : 0 < L) (hu : u ≤ -L) (hv : -L ≤ v) (hv' : v ≤ L) :
    fold L t u v = some (((frame t).ex.smul (-L)).add (((frame t).nrm.smul (L - (-u - L))).add ((frame t).ey.smul v))) := by
  unfold fold
  simp only
  rw [if_neg (by omega)]
  (repeat' split) <;> (try (exfalso; omega)) <;> (try rfl)
  all_goals
    unfold onCube
    generalize frame t = f
    simp only [Option.some.injEq, V3.add, V3.smul, V3.mk.injEq]
    first
      | (have : u = L := by omega
         subst this; refine ⟨?_, ?_, ?_⟩ <;> ring)
      | (have : u = -L := by omega
         subst this; refine ⟨?_, ?_, ?_⟩ <;> ring)
      | (have : v = L := by omega
         subst this; refine ⟨?_, ?_, ?_⟩ <;> ring)
      | (have : v = -L := by omega
         subst this; refine ⟨?_, ?_, ?_⟩ <;> ring)

theorem fold_north (L t u v : Int) (hL : 0 < L) (hv : L ≤ v) (hu : -L ≤ u) (hu' : u ≤ L) :
    fold L t u v = some (((frame t).ey.smul L).add (((frame t).nrm.smul (L - (v - L))).add ((frame t).ex.smul u))) := by
  unfold fold
  simp only
  rw [if_neg (by omega)]
  (repeat' split) <;> (try (exfalso; omega)) <;> (try rfl)
  all_goals
    unfold onCube
    generalize frame t = f
    simp only [Option.some.injEq, V3.add, V3.smul, V3.mk.injEq]
    first
      | (have : u = L := by omega
         subst this; refine ⟨?_, ?_, ?_⟩ <;> ring)
      | (have : u = -L := by omega
         subst this; refine ⟨?_, ?_, ?_⟩ <;> ring)
      | (have : v = L := by omega
         subst this; refine ⟨?_, ?_, ?_⟩ <;> ring)
      | (have : v = -L := by omega
         subst this; refine ⟨?_, ?_, ?_⟩ <;> ring)

theorem fold_south (L t u v : Int) (hL : 0 < L) (hv : v ≤ -L) (hu : -L ≤ u) (hu' : u ≤ L) :
    fold L t u v = some (((frame t).ey.smul (-L)).add (((frame t).nrm.smul (L - (-v - L))).add ((frame t).ex.smul u))) := by
  unfold fold
  simp only
  rw [if_neg (by omega)]
  (repeat' split) <;> (try (exfalso; omega)) <;> (try rfl)
  all_goals
    unfold onCube
    generalize frame t = f
    simp only [Option.some.injEq, V3.add, V3.smul, V3.mk.injEq]
    first
      | (have : u = L := by omega
         subst this; refine ⟨?_, ?_, ?_⟩ <;> ring)
      | (have : u = -L := by omega
         subst this; refine ⟨?_, ?_, ?_⟩ <;> ring)
      | (have : v = L := by omega
         subst this; refine ⟨?_, ?_, ?_⟩ <;> ring)
      | (have : v = -L := by omega
         subst this; refine ⟨?_, ?_, ?_⟩ <;> ring)

theorem fold_inside (L t u v : Int) (hL : 0 < L) (hu : -L ≤ u) (hu' : u ≤ L) (hv : -L ≤ v) (hv' : v ≤ L) :
    fold L t u v = some (onCube L t u v) := by
  unfold fold
  simp only
  rw [if_neg (by omega)]
  (repeat' split) <;> (try (exfalso; omega)) <;> (try rfl)
  all_goals
    unfold onCube
    generalize frame t = f
    simp only [Option.some.injEq, V3.add, V3.smul, V3.mk.injEq]
    first
      | (have : u = L := by omega
         subst this; refine ⟨?_, ?_, ?_⟩ <;> ring)
      | (have : u = -L := by omega
         subst this; refine ⟨?_, ?_, ?_⟩ <;> ring)
      | (have : v = L := by omega
         subst this; refine ⟨?_, ?_, ?_⟩ <;> ring)
      | (have : v = -L := by omega
         subst this; refine ⟨?_, ?_, ?_⟩ <;> ring)

theorem fold_ends (c : Bool) (L t u v : Int) (hL : 0 < L) (P : V3) (h : fold L t u v = some P)
    (hp : if c then v ≠ L ∧ v ≠ -L else u ≠ L ∧ u ≠ -L) :
    fold L t (u + (halfStep c).1) (v + (halfStep c).2) = some (P.add (part c (foldAxes L t u v))) ∧
    fold L t (u - (halfStep c).1) (v - (halfStep c).2) = some (P.add (part c (foldAxes L t u v)).neg) := by
  have hin : ¬((u > L ∨ u < -L) ∧ (v > L ∨ v < -L)) := by
    intro hc
    unfold fold at h
    rw [if_pos hc] at h
    cases h
  have hs : 0 ≤ (halfStep c).1 ∧ (halfStep c).1 ≤ 1 ∧ 0 ≤ (halfStep c).2 ∧ (halfStep c).2 ≤ 1 ∧
      (if c then (halfStep c).1 = 0 else (halfStep c).2 = 0) := by cases c <;> simp [halfStep]
  by_cases h1 : u > L
  · rw [fold_east L t u v hL (by omega) (by omega) (by omega)] at h
    have h := Option.some.inj h
    subst h
    rw [fold_east L t _ _ hL (by omega) (by cases c <;> simp at hp hs <;> omega) (by cases c <;> simp at hp hs <;> omega),
      fold_east L t _ _ hL (by omega) (by cases c <;> simp at hp hs <;> omega) (by cases c <;> simp at hp hs <;> omega)]
    unfold foldAxes
    simp only
    rw [if_pos h1]
    generalize frame t = f
    cases c <;> simp [halfStep, part, V3.add, V3.smul, V3.neg] <;> refine ⟨⟨?_, ?_, ?_⟩, ?_, ?_, ?_⟩ <;> ring
  by_cases h2 : u < -L
  · rw [fold_west L t u v hL (by omega) (by omega) (by omega)] at h
    have h := Option.some.inj h
    subst h
    rw [fold_west L t _ _ hL (by omega) (by cases c <;> simp at hp hs <;> omega) (by cases c <;> simp at hp hs <;> omega),
      fold_west L t _ _ hL (by omega) (by cases c <;> simp at hp hs <;> omega) (by cases c <;> simp at hp hs <;> omega)]
    unfold foldAxes
    simp only
    rw [if_neg h1, if_pos h2]
    generalize frame t = f
    cases c <;> simp [halfStep, part, V3.add, V3.smul, V3.neg] <;> refine ⟨⟨?_, ?_, ?_⟩, ?_, ?_, ?_⟩ <;> ring
  by_cases h3 : v > L
  · rw [fold_north L t u v hL (by omega) (by omega) (by omega)] at h
    have h := Option.some.inj h
    subst h
    rw [fold_north L t _ _ hL (by omega) (by cases c <;> simp at hp hs <;> omega) (by cases c <;> simp at hp hs <;> omega),
      fold_north L t _ _ hL (by omega) (by cases c <;> simp at hp hs <;> omega) (by cases c <;> simp at hp hs <;> omega)]
    unfold foldAxes
    simp only
    rw [if_neg h1, if_neg h2, if_pos h3]
    generalize frame t = f
    cases c <;> simp [halfStep, part, V3.add, V3.smul, V3.neg] <;> refine ⟨⟨?_, ?_, ?_⟩, ?_, ?_, ?_⟩ <;> ring
  by_cases h4 : v < -L
  · rw [fold_south L t u v hL (by omega) (by omega) (by omega)] at h
    have h := Option.some.inj h
    subst h
    rw [fold_south L t _ _ hL (by omega) (by cases c <;> simp at hp hs <;> omega) (by cases c <;> simp at hp hs <;> omega),
      fold_south L t _ _ hL (by omega) (by cases c <;> simp at hp hs <;> omega) (by cases c <;> simp at hp hs <;> omega)]
    unfold foldAxes
    simp only
    rw [if_neg h1, if_neg h2, if_neg h3, if_pos h4]
    generalize frame t = f
    cases c <;> simp [halfStep, part, V3.add, V3.smul, V3.neg] <;> refine ⟨⟨?_, ?_, ?_⟩, ?_, ?_, ?_⟩ <;> ring
  · rw [fold_inside L t u v hL (by omega) (by omega) (by omega) (by omega)] at h
    have h := Option.some.inj h
    subst h
    rw [fold_inside L t _ _ hL (by cases c <;> simp at hp hs <;> omega) (by cases c <;> simp at hp hs <;> omega)
        (by cases c <;> simp at hp hs <;> omega) (by cases c <;> simp at hp hs <;> omega),
      fold_inside L t _ _ hL (by cases c <;> simp at hp hs <;> omega) (by cases c <;> simp at hp hs <;> omega)
        (by cases c <;> simp at hp hs <;> omega) (by cases c <;> simp at hp hs <;> omega)]
    have e := onCube_ends c L t u v
    unfold foldAxes
    simp only
    rw [if_neg h1, if_neg h2, if_neg h3, if_neg h4, e.1, e.2]
    exact ⟨rfl, rfl⟩

/-! ### The exchange -/

theorem edge_ds (l c : Nat) (R : ℝ) (s : Int) (d : Bool) : (part d ((squareCube l).edgePair R c s)).ds = part d (edgeSpecs 3 c) := by
  cases d <;> rfl

theorem edge_fields (l c : Nat) (R : ℝ) (hc : 3 ≤ c) (d : Bool) :
    CubeFields (l : Int) 3 (fun i => (c : Int) * i) fun s => ([(squareCube l).edgePair R c s] : List (Qty ℝ × Qty ℝ)).map fun v => (part d v).ds where
  fields := by
    intro s t j i _ _ _ ds hds
    rw [List.map_singleton, List.mem_singleton, edge_ds] at hds
    subst hds
    have e : ∀ i : Int, (c : Int) * (i + 1) - c * i = c := by intro i; ring
    simp only [e]
    have hC : 3 ≤ (c : Int) := by omega
    generalize (c : Int) = C at hC ⊢
    cases d <;> simp only [edgeSpecs, part, Bool.false_eq_true, if_false, if_true] <;> refine ⟨⟨rfl, rfl⟩, ?_, ?_, ?_, ?_⟩ <;>
      simp [Dim.isI, Dim.isJ, DimSpec.stag, Dim.isInterface, Dim.isHorizontal] <;> omega
  same := by
    intro s s' _ _ _ _
    rw [List.map_singleton, List.map_singleton, edge_ds, edge_ds]
    generalize (c : Int) = C
    cases d <;> simp only [edgeSpecs, part, Bool.false_eq_true, if_false, if_true] <;>
      exact .cons ⟨rfl, .cons (fun _ => rfl) (.cons (fun _ => rfl) .nil)⟩ .nil

/-- Numbers of edges. -/
def edgeCount (d : Bool) (c : Int) : Int × Int := if d then (c + 1, c) else (c, c + 1)

theorem edge_inside (l c : Nat) (R : ℝ) (s : Int) (d : Bool) (g : List Int) :
    InCompute (part d ((squareCube l).edgePair R c s)).ds g ↔
    ∃ a b, g = [a, b] ∧ 3 ≤ a ∧ a < 3 + (edgeCount d c).1 ∧ 3 ≤ b ∧ b < 3 + (edgeCount d c).2 := by
  unfold InCompute
  constructor
  · intro hg
    cases d <;> simp only [CubePart.edgePair, edgeView, edgeSpecs, part, Bool.false_eq_true, if_false, if_true] at hg <;>
    · cases hg with
      | cons p hg => cases hg with
        | cons q hg =>
          cases hg
          simp only [edgeCount, Bool.false_eq_true, if_false, if_true] at p q ⊢
          exact ⟨_, _, rfl, p.1, p.2, q.1, q.2⟩
  · rintro ⟨a, b, rfl, h1, h2, h3, h4⟩
    cases d <;> exact .cons ⟨h1, h2⟩ (.cons ⟨h3, h4⟩ .nil)

theorem edge_coord (l c : Nat) (R : ℝ) (s : Int) (d : Bool) (L lo a b : Int) :
    coordI L lo (part d ((squareCube l).edgePair R c s)).ds [a, b] = 2 * (lo + (a - 3)) + (halfStep d).1 - L ∧
    coordJ L lo (part d ((squareCube l).edgePair R c s)).ds [a, b] = 2 * (lo + (b - 3)) + (halfStep d).2 - L := by
  cases d <;> simp [coordI, coordJ, CubePart.edgePair, edgeView, edgeSpecs, part, halfStep, Dim.isI, Dim.isJ, DimSpec.stag, Dim.isInterface] <;> omega

theorem edge_value (l c : Nat) (R : ℝ) (s : Int) (d : Bool) (a b : Int) (h1 : 3 ≤ a) (h2 : a < 3 + (edgeCount d c).1) (h3 : 3 ≤ b)
    (h4 : b < 3 + (edgeCount d c).2) :
    (part d ((squareCube l).edgePair R c s)).data.get [a, b] =
      lonLatDist R ((squareCube l).dCorner R c s (a - 3) (b - 3))
        ((squareCube l).dCorner R c s (a - 3 + (halfStep d).1) (b - 3 + (halfStep d).2)) := by
  cases d <;> simp [CubePart.edgePair, edgeView, part, halfStep, edgeCount] at h2 h4 ⊢ <;> omega

/-- The two corners that a rank holds at the two ends of one of its own edges. -/
theorem edge_own (R : ℝ) (hR : 1 ≤ R) (l c : Nat) (hl : 0 < l) (hc : 3 ≤ c) (hn : l * c ≤ 10 ^ 9) (d : Bool) (s t j i : Int)
    (s0 : 0 ≤ s) (s1 : s < (squareCube l).totalRanks) (hs : (squareCube l).At s t j i) (a b : Int)
    (h1 : 3 ≤ a) (h2 : a < 3 + (edgeCount d c).1) (h3 : 3 ≤ b) (h4 : b < 3 + (edgeCount d c).2) (u v : Int)
    (hu : u = 2 * (c * i + (a - 3)) + (halfStep d).1 - l * c) (hv : v = 2 * (c * j + (b - 3)) + (halfStep d).2 - l * c) :
    ∃ p p', LonLat p (unit (stretched (l * c) ((onCube (l * c) t u v).add (part d ((frame t).ex, (frame t).ey)).neg))) ∧
      LonLat p' (unit (stretched (l * c) ((onCube (l * c) t u v).add (part d ((frame t).ex, (frame t).ey))))) ∧
      (part d ((squareCube l).edgePair R c s)).data.get [a, b] = lonLatDist R (shift p) (shift p') := by
  have hs2 : a - 3 + (halfStep d).1 ≤ c ∧ b - 3 + (halfStep d).2 ≤ c ∧ 0 ≤ (halfStep d).1 ∧ 0 ≤ (halfStep d).2 ∧ a - 3 ≤ c ∧ b - 3 ≤ c := by
    cases d <;> simp [halfStep, edgeCount] at h2 h4 ⊢ <;> omega
  obtain ⟨p, p1, p2⟩ := dCorner_place R hR l c hl (by omega) hn s t j i s0 s1 hs (a - 3) (b - 3) (by omega) (by omega) (by omega) (by omega)
  obtain ⟨p', p1', p2'⟩ := dCorner_place R hR l c hl (by omega) hn s t j i s0 s1 hs (a - 3 + (halfStep d).1) (b - 3 + (halfStep d).2)
    (by omega) (by omega) (by omega) (by omega)
  have e := onCube_ends d (l * c) t u v
  refine ⟨p, p', ?_, ?_, ?_⟩
  · rw [← e.2]
    have e1 : u - (halfStep d).1 = 2 * (c * i + (a - 3)) - l * c := by omega
    have e2 : v - (halfStep d).2 = 2 * (c * j + (b - 3)) - l * c := by omega
    rw [e1, e2]; exact p1
  · rw [← e.1]
    have e1 : u + (halfStep d).1 = 2 * (c * i + (a - 3 + (halfStep d).1)) - l * c := by rw [hu]; ring
    have e2 : v + (halfStep d).2 = 2 * (c * j + (b - 3 + (halfStep d).2)) - l * c := by rw [hv]; ring
    rw [e1, e2]; exact p1'
  · rw [edge_value l c R s d a b h1 h2 h3 h4, p2, p2']

/-- **C147**: for every layout, number of cells and rank, the length that the array of lengths of edges along x (`d = false`)
or y (`d = true`) holds after the exchange, also in the halo, is the distance of the two corners that the array of corners of
the same rank holds at the two ends of the edge; for every edge that is not beyond a corner of the tile. -/
theorem C147_lengths (R : ℝ) (hR : 1 ≤ R) (l c : Nat) (nz : Int) (hl : 0 < l) (hc : 3 ≤ c)
    (hn : l * c ≤ 10 ^ 9) (junk junk' : Nat → ℝ) (old : Int → List Int → ℝ)
    (r t j i : Int) (h0 : 0 ≤ r) (h1 : r < (squareCube l).totalRanks) (hpos : (squareCube l).At r t j i) :
    ∃ q e, (squareCube l).initDgrid junk R c nz old r = .ok [q] ∧ (squareCube l).edgeLengths junk' R c r = .ok [e] ∧
      ∀ (d : Bool) (a b : Int), 0 ≤ a → a < (edgeCount d c).1 + 2 * 3 → 0 ≤ b → b < (edgeCount d c).2 + 2 * 3 →
        fold (l * c) t (2 * (c * i + (a - 3)) + (halfStep d).1 - l * c) (2 * (c * j + (b - 3)) + (halfStep d).2 - l * c) ≠ none →
        (part d e).data.get [a, b] =
          lonLatDist R (q.data.get [a, b, 0], q.data.get [a, b, 1])
            (q.data.get [a + (halfStep d).1, b + (halfStep d).2, 0], q.data.get [a + (halfStep d).1, b + (halfStep d).2, 1]) := by
  obtain ⟨q, hq, G⟩ := C145_grid R hR l c nz hl hc hn junk old r t j i h0 h1 hpos
  obtain ⟨out, ho, hlen, H⟩ := C142_fill (l : Int) 3 (l * c) (by omega) (by omega) (fun i => (c : Int) * i)
    (external_axis l c (by omega))
    (fun i _ _ => by have : (c : Int) * (i + 1) = c * i + c := by ring
                     omega) junk' (fun s => [(squareCube l).edgePair R c s]) (edge_fields l c R hc)
    (fun s _ _ v hv => by
      rw [List.mem_singleton] at hv; subst hv
      refine ⟨.cons ?_ (.cons ?_ .nil), ?_, ?_⟩ <;>
        simp [CubePart.edgePair, edgeView, edgeSpecs, Dim.isI, Dim.isJ, Dim.isHorizontal, DimSpec.stag, Dim.isInterface])
    (fun s _ _ v hv d g hg => by
      rw [List.mem_singleton] at hv; subst hv
      obtain ⟨a, b, rfl, g1, g2, g3, g4⟩ := (edge_inside l c R s d g).1 hg
      rw [edge_value l c R s d a b g1 g2 g3 g4]
      exact lonLatDist_nonneg R (by linarith) _ _)
    r t j i h0 h1 hpos (by simp)
  obtain ⟨e, rfl⟩ : ∃ e, out = [e] := by
    match out, hlen with
    | [e], _ => exact ⟨e, rfl⟩
  refine ⟨q, e, hq, ho, fun d a b ha ha' hb hb' hf => ?_⟩
  obtain ⟨-, -, K1, K2⟩ := H 0 _ e rfl rfl d
  obtain ⟨P, hP⟩ := Option.ne_none_iff_exists'.mp hf
  have hL : 0 < (l : Int) * c := by
    have := Nat.mul_pos hl (show 0 < c by omega)
    exact_mod_cast this
  have hs2 : a + (halfStep d).1 < c + 1 + 2 * 3 ∧ b + (halfStep d).2 < c + 1 + 2 * 3 ∧ 0 ≤ (halfStep d).1 ∧ 0 ≤ (halfStep d).2 ∧
      a < c + 1 + 2 * 3 ∧ b < c + 1 + 2 * 3 := by
    cases d <;> simp [halfStep, edgeCount] at ha' hb' ⊢ <;> omega
  -- the ends of the edge, as the receiver sees them
  have ends := fold_ends d (l * c) t _ _ hL P hP (by
    generalize (l : Int) * c = L at *
    generalize (c : Int) * i = ci at *
    generalize (c : Int) * j = cj at *
    cases d <;> simp [halfStep] <;> omega)
  obtain ⟨P1, p1, x1, x2, x3, x4⟩ := G a b ha (by omega) hb (by omega)
  obtain ⟨P2, p2, y1, y2, y3, y4⟩ := G (a + (halfStep d).1) (b + (halfStep d).2) (by omega) (by omega) (by omega) (by omega)
  rw [x3, x4, y3, y4]
  show _ = lonLatDist R (shift p1) (shift p2)
  set A := part d (foldAxes ((l : Int) * c) t (2 * (c * i + (a - 3)) + (halfStep d).1 - l * c) (2 * (c * j + (b - 3)) + (halfStep d).2 - l * c)) with hA
  have q1 : P1 = P.add A.neg := by
    have e1 : 2 * ((c : Int) * i + (a - 3)) + (halfStep d).1 - l * c - (halfStep d).1 = 2 * (c * i + (a - 3)) - l * c := by ring
    have e2 : 2 * ((c : Int) * j + (b - 3)) + (halfStep d).2 - l * c - (halfStep d).2 = 2 * (c * j + (b - 3)) - l * c := by ring
    have := ends.2
    rw [e1, e2] at this
    unfold continued at x1
    rw [this] at x1
    exact (Option.some.inj x1).symm
  have q2 : P2 = P.add A := by
    have e1 : 2 * ((c : Int) * i + (a - 3)) + (halfStep d).1 - l * c + (halfStep d).1 = 2 * (c * i + (a + (halfStep d).1 - 3)) - l * c := by ring
    have e2 : 2 * ((c : Int) * j + (b - 3)) + (halfStep d).2 - l * c + (halfStep d).2 = 2 * (c * j + (b + (halfStep d).2 - 3)) - l * c := by ring
    have := ends.1
    rw [e1, e2] at this
    unfold continued at y1
    rw [this] at y1
    exact (Option.some.inj y1).symm
  rw [q1] at x2
  rw [q2] at y2
  by_cases hin : InCompute (part d ((squareCube l).edgePair R c r)).ds [a, b]
  · rw [K1 _ hin]
    obtain ⟨a', b', eg, g1, g2, g3, g4⟩ := (edge_inside l c R r d _).1 hin
    simp only [List.cons.injEq, and_true] at eg
    obtain ⟨rfl, rfl⟩ := eg
    obtain ⟨o1, o2, z1, z2, z3⟩ := edge_own R hR l c hl hc hn d r t j i h0 h1 hpos a b g1 g2 g3 g4 _ _ rfl rfl
    have hij : fold (l * c) t (2 * (c * i + (a - 3)) + (halfStep d).1 - l * c) (2 * (c * j + (b - 3)) + (halfStep d).2 - l * c) =
        some (onCube (l * c) t (2 * (c * i + (a - 3)) + (halfStep d).1 - l * c) (2 * (c * j + (b - 3)) + (halfStep d).2 - l * c)) ∧
        foldAxes ((l : Int) * c) t (2 * (c * i + (a - 3)) + (halfStep d).1 - l * c) (2 * (c * j + (b - 3)) + (halfStep d).2 - l * c) =
          ((frame t).ex, (frame t).ey) := by
      have hij : (0 ≤ i ∧ i < l) ∧ 0 ≤ j ∧ j < l := by
        obtain ⟨p, hp, -, -, rfl⟩ := exists_pos (n := (l : Int)) (by omega) h0 h1
        obtain ⟨-, rfl, rfl⟩ := (at_iff hp t j i).1 hpos
        exact ⟨⟨hp.2.2.1, hp.2.2.2⟩, hp.1, hp.2.1⟩
      obtain ⟨mi, mi'⟩ := multiples l c i hij.1.1 hij.1.2 (by omega)
      obtain ⟨mj, mj'⟩ := multiples l c j hij.2.1 hij.2.2 (by omega)
      generalize (l : Int) * c = L at *
      generalize (c : Int) * i = ci at *
      generalize (c : Int) * j = cj at *
      have bd : -L ≤ 2 * (ci + (a - 3)) + (halfStep d).1 - L ∧ 2 * (ci + (a - 3)) + (halfStep d).1 - L ≤ L ∧
          -L ≤ 2 * (cj + (b - 3)) + (halfStep d).2 - L ∧ 2 * (cj + (b - 3)) + (halfStep d).2 - L ≤ L := by
        cases d <;> simp [halfStep, edgeCount] at g2 g4 ⊢ <;> omega
      refine ⟨fold_inside L t _ _ hL bd.1 bd.2.1 bd.2.2.1 bd.2.2.2, ?_⟩
      unfold foldAxes
      simp only
      rw [if_neg (by omega), if_neg (by omega), if_neg (by omega), if_neg (by omega)]
    have eP : P = _ := Option.some.inj (hP.symm.trans hij.1)
    have eA : A = part d ((frame t).ex, (frame t).ey) := by rw [hA, hij.2]
    rw [← eP, ← eA] at z1 z2
    rw [z3, lonLat_unique _ _ _ z1 x2, lonLat_unique _ _ _ z2 y2]
  · have F := K2 [a, b] (by
      cases d <;> simp [edgeCount] at ha' hb' <;>
        refine .cons ?_ (.cons ?_ .nil) <;> simp [Dim.isHorizontal, Dim.isI, Dim.isJ] <;> omega) hin
    rw [(edge_coord l c R r d (l * c) (c * i) a b).1, (edge_coord l c R r d (l * c) (c * j) a b).2, hP] at F
    obtain ⟨s, t', j', i', vs, gs, d', s0, s1, hs, es, inn, on, -, ax, val⟩ := F
    simp only [List.getElem?_cons_zero, Option.some.injEq] at es
    subst es
    obtain ⟨a', b', rfl, g1, g2, g3, g4⟩ := (edge_inside l c R s d' _).1 inn
    rw [(edge_coord l c R s d' (l * c) (c * i') a' b').1, (edge_coord l c R s d' (l * c) (c * j') a' b').2] at on
    obtain ⟨o1, o2, z1, z2, z3⟩ := edge_own R hR l c hl hc hn d' s t' j' i' s0 s1 hs a' b' g1 g2 g3 g4 _ _ rfl rfl
    rw [on] at z1 z2
    rw [val, z3]
    rcases ax with ax | ax
    · have eA : A = part d' ((frame t').ex, (frame t').ey) := ax
      rw [← eA] at z1 z2
      rw [lonLat_unique _ _ _ z1 x2, lonLat_unique _ _ _ z2 y2]
    · have eA : A = (part d' ((frame t').ex, (frame t').ey)).neg := ax
      have eA' : part d' ((frame t').ex, (frame t').ey) = A.neg := by
        rw [eA]; simp [V3.neg]
      rw [← eA] at z1
      rw [eA'] at z2
      rw [lonLat_unique _ _ _ z1 y2, lonLat_unique _ _ _ z2 x2]
      exact lonLatDist_comm R _ _

/-- An edge in the west halo of tile 0 that is not beyond a corner, and one that is; on tiles of 48 cells in 2 by 2 blocks. -/
example : fold 48 0 (2 * (24 * 0 + (1 - 3)) + 1 - 48) (2 * (24 * 0 + (5 - 3)) + 0 - 48) ≠ none ∧
    fold 48 0 (2 * (24 * 0 + (1 - 3)) + 1 - 48) (2 * (24 * 0 + (2 - 3)) + 0 - 48) = none := by decide

end NDSL
