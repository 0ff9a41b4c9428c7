import Verif.Model.TestGrid
import Verif.Props.Translate
import Verif.Props.EdgeFactors
/-
C128: ranges, windows, edges and sizes of the grid of a test are those of the rank's part of the tile.
-/
namespace NDSL.Translate
open NDSL.Storage NDSL.Translate.Grid
variable {V : Type}

/-! ### windows -/

/-- The windows of a grid with `nx` by `ny` cells and `nz` levels around which there are three cells: first point and number of points
in each direction. -/
def windows (nx ny nz : Nat) : List ((Grid → Window) × (Nat × Nat) × (Nat × Nat) × Nat) :=
  [(computeDict, (3, nx), (3, ny), nz),
   (x3dComputeDict, (3, nx + 1), (3, ny), nz),
   (y3dComputeDict, (3, nx), (3, ny + 1), nz),
   (computeDictBuffer2d, (3, nx + 1), (3, ny + 1), nz),
   (computeBufferKDict, (3, nx), (3, ny), nz + 1),
   (defaultDomainDict, (0, nx + 6), (0, ny + 6), nz),
   (x3dDomainDict, (0, nx + 7), (0, ny + 6), nz),
   (y3dDomainDict, (0, nx + 6), (0, ny + 7), nz),
   (defaultDictBuffer2d, (0, nx + 7), (0, ny + 7), nz),
   (defaultBufferKDict, (0, nx + 6), (0, ny + 6), nz + 1),
   (x3dComputeDomainYDict, (3, nx + 1), (0, ny + 6), nz),
   (y3dComputeDomainXDict, (0, nx + 6), (3, ny + 1), nz)]

theorem sliceOf_eq {a b : Int} {m n : Nat} (ha : a = m) (hb : b + 1 = (m + n : Nat)) : sliceOf (a, b) = .ok (m, m + n) := by
  subst ha
  simp only [sliceOf]
  rw [hb, nat_eq, nat_eq]; rfl

theorem slices_eq {w : Window} {oi si oj sj ok sk : Nat} (h1 : w.istart = oi) (h2 : w.iend + 1 = (oi + si : Nat))
    (h3 : w.jstart = oj) (h4 : w.jend + 1 = (oj + sj : Nat)) (h5 : w.kstart = ok) (h6 : w.kend + 1 = (ok + sk : Nat)) :
    w.slices = .ok [(oi, oi + si), (oj, oj + sj), (ok, ok + sk)] := by
  unfold Window.slices sliceDict
  simp only [List.take, List.mapM_cons, List.mapM_nil, sliceOf_eq h1 h2, sliceOf_eq h3 h4, sliceOf_eq h5 h6]
  rfl

theorem cut3 (a : Nd V) {n m l oi si oj sj ok sk : Nat} (hs : a.shape = [n, m, l]) (hi : oi + si ≤ n) (hj : oj + sj ≤ m)
    (hk : ok + sk ≤ l) :
    cut a [(oi, oi + si), (oj, oj + sj), (ok, ok + sk)] =
      .ok ⟨[si, sj, sk], fun idx => a.get (List.zipWith (fun (r : Nat × Nat) i => r.1 + i) [(oi, si), (oj, sj), (ok, sk)] idx)⟩ := by
  have e : ∀ {o s n : Nat}, o + s ≤ n → (min o n, min (o + s) n - min o n) = (o, s) := by
    intro o s n h
    rw [Nat.min_eq_left h, Nat.min_eq_left (by omega)]
    congr 1; omega
  unfold cut
  rw [hs]
  simp only [regions, Option.map_some, List.map_nil, e hi, e hj, e hk]
  rfl

/-- Every window, of an array with a point more than there are cells in each direction, is where it should be: it has the
right size and its values are those from its first point on. -/
theorem C128_windows {L nx ny nz : Nat} {rank : Int} (hL : 0 < L) (a : Nd V)
    (ha : a.shape = [nx + 7, ny + 7, nz + 1]) :
    let g := Grid.make (L * nx + 1) (L * ny + 1) nz (L, L) rank
    ∀ w ∈ windows nx ny nz, ∃ s c, (w.1 g).slices = .ok s ∧ cut a s = .ok c ∧
      c.shape = [w.2.1.2, w.2.2.1.2, w.2.2.2] ∧
      ∀ i j k, c.get [i, j, k] = a.get [w.2.1.1 + i, w.2.2.1.1 + j, k] := by
  intro g w hw
  have hg : g = _ := grid_make (L := L) (nx := nx) (ny := ny) (npz := nz) (rank := rank) (by omega)
  have main : ∀ (f : Grid → Window) (oi si oj sj sk : Nat), (f g).istart = oi → (f g).iend + 1 = (oi + si : Nat) →
      (f g).jstart = oj → (f g).jend + 1 = (oj + sj : Nat) → (f g).kstart = 0 → (f g).kend + 1 = sk →
      oi + si ≤ nx + 7 → oj + sj ≤ ny + 7 → sk ≤ nz + 1 →
      ∃ s c, (f g).slices = .ok s ∧ cut a s = .ok c ∧ c.shape = [si, sj, sk] ∧
        ∀ i j k, c.get [i, j, k] = a.get [oi + i, oj + j, k] := by
    intro f oi si oj sj sk h1 h2 h3 h4 h5 h6 h7 h8 h9
    refine ⟨_, _, slices_eq (ok := 0) (sk := sk) h1 h2 h3 h4 h5 (by rw [h6]; simp), cut3 a ha h7 h8 (by omega), rfl, ?_⟩
    intro i j k
    simp [List.zipWith]
  simp only [windows, List.mem_cons, List.not_mem_nil, or_false] at hw
  rcases hw with rfl | rfl | rfl | rfl | rfl | rfl | rfl | rfl | rfl | rfl | rfl | rfl <;>
  · apply main <;> (try rw [hg]) <;>
    simp only [computeDict, x3dComputeDict, y3dComputeDict, computeDictBuffer2d, computeBufferKDict, defaultDomainDict,
      x3dDomainDict, y3dDomainDict, defaultDictBuffer2d, defaultBufferKDict, x3dComputeDomainYDict, y3dComputeDomainXDict] <;>
    omega

/-- Shapes and origins are those of the windows, with what is to be added. -/
theorem C128_shapes {L nx ny nz : Nat} {rank : Int} (hL : 0 < L) (a b c : Int) :
    let g := Grid.make (L * nx + 1) (L * ny + 1) nz (L, L) rank
    g.domainShapeCompute (a, b, c) = (nx + a, ny + b, nz + c) ∧
    g.domainShapeFull (a, b, c) = (nx + 6 + a, ny + 6 + b, nz + c) ∧
    g.computeOrigin (a, b, c) = (3 + a, 3 + b, c) ∧ g.fullOrigin (a, b, c) = (a, b, c) := by
  intro g
  have hg : g = _ := grid_make (L := L) (nx := nx) (ny := ny) (npz := nz) (rank := rank) (by omega)
  rw [hg]
  simp only [domainShapeCompute, domainShapeFull, computeOrigin, fullOrigin, nic, njc, nid, njd]
  refine ⟨?_, ?_, trivial, ?_⟩ <;> rw [Prod.mk.injEq, Prod.mk.injEq]
  · exact ⟨by omega, by omega, rfl⟩
  · exact ⟨by omega, by omega, rfl⟩
  · exact ⟨by omega, by omega, rfl⟩

theorem mem_pyRange {a b x : Int} : x ∈ pyRange a b ↔ a ≤ x ∧ x < b := by
  unfold pyRange
  rw [List.mem_map]
  constructor
  · rintro ⟨n, hn, rfl⟩
    rw [List.mem_range] at hn; omega
  · rintro ⟨h1, h2⟩
    exact ⟨(x - a).toNat, List.mem_range.2 (by omega), by omega⟩

theorem pyRange_getElem? {a b : Int} {n : Nat} (h : a + n < b) : (pyRange a b)[n]? = some (a + n) := by
  unfold pyRange
  rw [List.getElem?_map, List.getElem?_range (by omega)]
  rfl

/-- Ranges of indices run over the cells, or interfaces, of the rank, in order, each once. -/
theorem C128_ranges {L nx ny nz : Nat} {rank : Int} (hL : 0 < L) :
    let g := Grid.make (L * nx + 1) (L * ny + 1) nz (L, L) rank
    let run := fun (l : List Int) (start size : Nat) => l = (List.range size).map fun n => ((start + n : Nat) : Int)
    run g.irangeCompute 3 nx ∧ run g.irangeComputeX 3 (nx + 1) ∧ run g.jrangeCompute 3 ny ∧ run g.jrangeComputeY 3 (ny + 1) ∧
    run g.irangeDomain 0 (nx + 6) ∧ run g.jrangeDomain 0 (ny + 6) ∧ run g.krange 0 nz := by
  intro g run
  have hg : g = _ := grid_make (L := L) (nx := nx) (ny := ny) (npz := nz) (rank := rank) (by omega)
  have e : ∀ (a b : Int) (start size : Nat), a = start → b = (start + size : Nat) → run (pyRange a b) start size := by
    intro a b start size ha hb
    subst ha hb
    show pyRange _ _ = _
    unfold pyRange
    rw [show ((start + size : Nat) - (start : Int)).toNat = size by omega]
    refine List.map_congr_left fun n _ => ?_
    omega
  rw [hg]
  refine ⟨e _ _ _ _ ?_ ?_, e _ _ _ _ ?_ ?_, e _ _ _ _ ?_ ?_, e _ _ _ _ ?_ ?_, e _ _ _ _ ?_ ?_, e _ _ _ _ ?_ ?_,
    e _ _ _ _ ?_ ?_⟩ <;> first | rfl | (simp only; omega)

/-- Every interface across `i` is in the window of interfaces of some rank of each row, and two ranks of a row share one
exactly if they are neighbours and it is the one between them. -/
theorem C128_interfaces {L nx ny nz : Nat} (hL : 0 < L) (hx : 0 < nx) (hy : 0 < ny) {i : Int} :
    let inside := fun (rank : Int) =>
      let g := Grid.make (L * nx + 1) (L * ny + 1) nz (L, L) rank
      g.globalI g.x3dComputeDict.istart ≤ i ∧ i ≤ g.globalI g.x3dComputeDict.iend
    let s := fun (rank : Int) => subtileIndex rank ((L : Int) * L) (L, L)
    (3 ≤ i ∧ i ≤ 3 + L * nx → ∀ row : Int, 0 ≤ row ∧ row < L → ∃ rank : Int, 0 ≤ rank ∧ rank < L * L ∧ (s rank).1 = row ∧ inside rank) ∧
    (∀ r r' : Int, (s r).1 = (s r').1 → (s r).2 < (s r').2 →
      (inside r ∧ inside r' ↔ (s r').2 = (s r).2 + 1 ∧ i = 3 + (s r').2 * nx)) := by
  intro inside s
  have hin : ∀ rank, inside rank ↔ 3 + (s rank).2 * nx ≤ i ∧ i ≤ 3 + (s rank).2 * nx + nx := by
    intro rank
    show _ ≤ i ∧ i ≤ _ ↔ _
    rw [grid_make (by omega)]
    simp only [x3dComputeDict, globalI, localToGlobal]
    constructor <;> rintro ⟨h1, h2⟩ <;> refine ⟨?_, ?_⟩ <;> simp only [s] at * <;> omega
  constructor
  · intro hi row hrow
    have hL' : (0 : Int) < L := by omega
    -- the column of the rank
    obtain ⟨c, hc0, hc1, hc2, hc3⟩ : ∃ c : Int, 0 ≤ c ∧ c < L ∧ 3 + c * nx ≤ i ∧ i ≤ 3 + c * nx + nx := by
      by_cases hlast : i = 3 + L * nx
      · refine ⟨L - 1, by omega, by omega, ?_, ?_⟩ <;> rw [hlast, Int.sub_mul] <;> omega
      · have hx' : (0 : Int) < nx := by omega
        refine ⟨(i - 3) / nx, Int.ediv_nonneg (by omega) (by omega), (Int.ediv_lt_iff_lt_mul hx').mpr (by omega), ?_, ?_⟩
        · have e1 := Int.ediv_mul_add_emod (i - 3) nx
          have e2 := Int.emod_nonneg (i - 3) (show (nx : Int) ≠ 0 by omega)
          omega
        · have e1 := Int.ediv_mul_add_emod (i - 3) nx
          have e3 := Int.emod_lt_of_pos (i - 3) hx'
          omega
    have hLL : row * L + L ≤ (L : Int) * L := by
      have := Int.mul_le_mul_of_nonneg_right (show row + 1 ≤ (L : Int) by omega) (show (0 : Int) ≤ L by omega)
      rw [Int.add_mul, Int.one_mul] at this; exact this
    have hRL : 0 ≤ row * L := Int.mul_nonneg hrow.1 (by omega)
    have hs : s (row * L + c) = (row, c) := by
      simp only [s, subtileIndex, Int.emod_eq_of_lt (show 0 ≤ row * L + c by omega) (show row * L + c < (L : Int) * L by omega)]
      congr 1
      · rw [Int.add_comm, Int.add_mul_ediv_right _ _ (by omega), Int.ediv_eq_zero_of_lt hc0 hc1, Int.zero_add]
      · rw [Int.add_comm, Int.add_mul_emod_self_right, Int.emod_eq_of_lt hc0 hc1]
    refine ⟨row * L + c, by omega, by omega, by rw [hs], ?_⟩
    rw [hin, hs]
    exact ⟨hc2, hc3⟩
  · intro r r' hrow hlt
    rw [hin, hin]
    generalize (s r).2 = c at *
    generalize (s r').2 = c' at *
    constructor
    · rintro ⟨⟨h1, h2⟩, h3, h4⟩
      have : c' = c + 1 := by
        rcases Int.lt_or_le (c + 1) c' with h | h
        · exfalso
          have : (c + 2) * nx ≤ c' * nx := Int.mul_le_mul_of_nonneg_right (by omega) (by omega)
          rw [Int.add_mul] at this
          omega
        · omega
      subst this
      rw [Int.add_mul, Int.one_mul] at *
      omega
    · rintro ⟨rfl, rfl⟩
      rw [Int.add_mul, Int.one_mul]
      omega

example : ∃ rank : Int, (subtileIndex rank (2 * 2) (2, 2)).1 = 1 ∧ (subtileIndex rank (2 * 2) (2, 2)).2 = 0 := ⟨2, by decide, by decide⟩

/-! ### edges -/

theorem assign3 (a d : Nd V) {n m l p q r t : Nat} (ha : a.shape = [n, m, l]) (hd : d.shape = [q - p, t - r, l]) (hp : p ≤ q)
    (hq : q ≤ n) (hr : r ≤ t) (ht : t ≤ m) :
    ∃ v, assign a [(p, q), (r, t), (0, l)] d = .ok v ∧ v.shape = [n, m, l] ∧
      ∀ x y z, z < l → v.get [x, y, z] =
        if (p ≤ x ∧ x < q) ∧ r ≤ y ∧ y < t then d.get [x - p, y - r, z] else a.get [x, y, z] := by
  have hreg : regions a.shape [(p, q), (r, t), (0, l)] = some [(p, q - p), (r, t - r), (0, l)] := by
    rw [ha]
    simp only [regions, Option.map_some, List.map_nil]
    rw [Nat.min_eq_left (show p ≤ n by omega), Nat.min_eq_left hq, Nat.min_eq_left (show r ≤ m by omega), Nat.min_eq_left ht]
    simp
  unfold assign
  rw [hreg, ha, hd]
  refine ⟨⟨[n, m, l], fun idx => if within [(p, q - p), (r, t - r), (0, l)] idx then
      d.get (List.replicate 0 0 ++ List.zipWith (fun i s => if s = 1 then 0 else i)
        (List.zipWith (fun i (r : Nat × Nat) => i - r.1) idx [(p, q - p), (r, t - r), (0, l)]) [q - p, t - r, l]) else a.get idx⟩, ?_, ?_, ?_⟩
  · simp only [List.map_cons, List.map_nil, List.length_cons, List.length_nil, Nat.reduceAdd, Nat.sub_self, List.take_zero,
      List.all_nil, List.drop_zero, Bool.true_and]
    rw [if_pos (by simp [fits])]
  · rfl
  · intro x y z hz
    simp only [within, Bool.and_true]
    have e : (decide (p ≤ x) && decide (x < p + (q - p)) && (decide (r ≤ y) && decide (y < r + (t - r)) &&
        (decide (0 ≤ z) && decide (z < 0 + l)))) = decide ((p ≤ x ∧ x < q) ∧ r ≤ y ∧ y < t) := by
      rw [Bool.eq_iff_iff]
      simp only [Bool.and_eq_true, decide_eq_true_eq]
      omega
    rw [e]
    by_cases h : (p ≤ x ∧ x < q) ∧ r ≤ y ∧ y < t
    · rw [if_pos h, if_pos (by simpa using h)]
      simp only [List.zipWith, List.replicate, List.nil_append, Nat.sub_zero]
      have e' : ∀ {o c : Nat}, o < c → (if c = 1 then 0 else o) = o := by intro o c ho; split <;> omega
      rw [e' (show x - p < q - p by omega), e' (show y - r < t - r by omega), e' hz]
    · rw [if_neg h, if_neg (by simpa using h)]

theorem assign2' (a d : Nd V) {n m p q r t : Nat} (ha : a.shape = [n, m]) (hd : d.shape = [q - p, t - r]) (hp : p ≤ q)
    (hq : q ≤ n) (hr : r ≤ t) (ht : t ≤ m) :
    ∃ v, assign a [(p, q), (r, t)] d = .ok v ∧ v.shape = [n, m] ∧
      ∀ x y, v.get [x, y] =
        if (p ≤ x ∧ x < q) ∧ r ≤ y ∧ y < t then d.get [x - p, y - r] else a.get [x, y] := by
  have hreg : regions a.shape [(p, q), (r, t)] = some [(p, q - p), (r, t - r)] := by
    rw [ha]
    simp only [regions, Option.map_some, List.map_nil]
    rw [Nat.min_eq_left (show p ≤ n by omega), Nat.min_eq_left hq, Nat.min_eq_left (show r ≤ m by omega), Nat.min_eq_left ht]
  unfold assign
  rw [hreg, ha, hd]
  refine ⟨⟨[n, m], fun idx => if within [(p, q - p), (r, t - r)] idx then
      d.get (List.replicate 0 0 ++ List.zipWith (fun i s => if s = 1 then 0 else i)
        (List.zipWith (fun i (r : Nat × Nat) => i - r.1) idx [(p, q - p), (r, t - r)]) [q - p, t - r]) else a.get idx⟩, ?_, ?_, ?_⟩
  · simp only [List.map_cons, List.map_nil, List.length_cons, List.length_nil, Nat.reduceAdd, Nat.sub_self, List.take_zero,
      List.all_nil, List.drop_zero, Bool.true_and]
    rw [if_pos (by simp [fits])]
  · rfl
  · intro x y
    simp only [within, Bool.and_true]
    have e : (decide (p ≤ x) && decide (x < p + (q - p)) && (decide (r ≤ y) && decide (y < r + (t - r)))) =
        decide ((p ≤ x ∧ x < q) ∧ r ≤ y ∧ y < t) := by
      rw [Bool.eq_iff_iff]
      simp only [Bool.and_eq_true, decide_eq_true_eq]
      omega
    rw [e]
    by_cases h : (p ≤ x ∧ x < q) ∧ r ≤ y ∧ y < t
    · rw [if_pos h, if_pos (by simpa using h)]
      simp only [List.zipWith, List.replicate, List.nil_append]
      have e' : ∀ {o c : Nat}, o < c → (if c = 1 then 0 else o) = o := by intro o c ho; split <;> omega
      rw [e' (show x - p < q - p by omega), e' (show y - r < t - r by omega)]
    · rw [if_neg h, if_neg (by simpa using h)]

/-- Inserting edges, in an array with three dimensions: the first `i` rows are those given, the first `j` columns are those given
(also where they meet), and everything else is as before; the same for the last ones. -/
theorem C128_insert (a ei ej fi fj : Nd V) {n m l i j : Nat} (ha : a.shape = [n, m, l]) (hi : i ≤ n) (hj : j ≤ m)
    (hei : ei.shape = [i, m, l]) (hej : ej.shape = [n, j, l]) (hfi : fi.shape = [n - i, m, l]) (hfj : fj.shape = [n, m - j, l]) :
    (∃ v, insertLeftEdge a ei i ej j = .ok v ∧ v.shape = [n, m, l] ∧ ∀ x y z, x < n → y < m → z < l →
      v.get [x, y, z] = if y < j then ej.get [x, y, z] else if x < i then ei.get [x, y, z] else a.get [x, y, z]) ∧
    (∃ v, insertRightEdge a fi i fj j = .ok v ∧ v.shape = [n, m, l] ∧ ∀ x y z, x < n → y < m → z < l →
      v.get [x, y, z] = if j ≤ y then fj.get [x, y - j, z] else if i ≤ x then fi.get [x - i, y, z] else a.get [x, y, z]) := by
  constructor
  · obtain ⟨v, h1, h2, h3⟩ := assign3 a ei (p := 0) (q := i) (r := 0) (t := m) ha (by simpa using hei) (by omega) hi (by omega)
      (by omega)
    obtain ⟨w, g1, g2, g3⟩ := assign3 v ej (p := 0) (q := n) (r := 0) (t := j) h2 (by simpa using hej) (by omega) (by omega)
      (by omega) hj
    refine ⟨w, ?_, g2, ?_⟩
    · unfold insertLeftEdge
      rw [ha]
      simp only [h1]
      exact g1
    · intro x y z hx hy hz
      rw [g3 x y z hz, h3 x y z hz]
      by_cases c1 : y < j
      · rw [if_pos (by omega), if_pos c1]; rfl
      · rw [if_neg (by omega), if_neg c1]
        by_cases c2 : x < i
        · rw [if_pos (by omega), if_pos c2]; rfl
        · rw [if_neg (by omega), if_neg c2]
  · obtain ⟨v, h1, h2, h3⟩ := assign3 a fi (p := i) (q := n) (r := 0) (t := m) ha (by simpa using hfi) hi (by omega) (by omega)
      (by omega)
    obtain ⟨w, g1, g2, g3⟩ := assign3 v fj (p := 0) (q := n) (r := j) (t := m) h2 (by simpa using hfj) (by omega) (by omega)
      hj (by omega)
    refine ⟨w, ?_, g2, ?_⟩
    · unfold insertRightEdge
      rw [ha]
      simp only [h1]
      exact g1
    · intro x y z hx hy hz
      rw [g3 x y z hz, h3 x y z hz]
      by_cases c1 : j ≤ y
      · rw [if_pos (by omega), if_pos c1]; rfl
      · rw [if_neg (by omega), if_neg c1]
        by_cases c2 : i ≤ x
        · rw [if_pos (by omega), if_pos c2]; rfl
        · rw [if_neg (by omega), if_neg c2]

/-- The same for arrays with two dimensions. -/
theorem C128_insert_plane (a ei ej fi fj : Nd V) {n m i j : Nat} (ha : a.shape = [n, m]) (hi : i ≤ n) (hj : j ≤ m)
    (hei : ei.shape = [i, m]) (hej : ej.shape = [n, j]) (hfi : fi.shape = [n - i, m]) (hfj : fj.shape = [n, m - j]) :
    (∃ v, insertLeftEdge a ei i ej j = .ok v ∧ v.shape = [n, m] ∧ ∀ x y, x < n → y < m →
      v.get [x, y] = if y < j then ej.get [x, y] else if x < i then ei.get [x, y] else a.get [x, y]) ∧
    (∃ v, insertRightEdge a fi i fj j = .ok v ∧ v.shape = [n, m] ∧ ∀ x y, x < n → y < m →
      v.get [x, y] = if j ≤ y then fj.get [x, y - j] else if i ≤ x then fi.get [x - i, y] else a.get [x, y]) := by
  constructor
  · obtain ⟨v, h1, h2, h3⟩ := assign2' a ei (p := 0) (q := i) (r := 0) (t := m) ha (by simpa using hei) (by omega) hi (by omega)
      (by omega)
    obtain ⟨w, g1, g2, g3⟩ := assign2' v ej (p := 0) (q := n) (r := 0) (t := j) h2 (by simpa using hej) (by omega) (by omega)
      (by omega) hj
    refine ⟨w, ?_, g2, ?_⟩
    · unfold insertLeftEdge
      rw [ha]
      simp only [h1]
      exact g1
    · intro x y hx hy
      rw [g3 x y, h3 x y]
      by_cases c1 : y < j
      · rw [if_pos (by omega), if_pos c1]; rfl
      · rw [if_neg (by omega), if_neg c1]
        by_cases c2 : x < i
        · rw [if_pos (by omega), if_pos c2]; rfl
        · rw [if_neg (by omega), if_neg c2]
  · obtain ⟨v, h1, h2, h3⟩ := assign2' a fi (p := i) (q := n) (r := 0) (t := m) ha (by simpa using hfi) hi (by omega) (by omega)
      (by omega)
    obtain ⟨w, g1, g2, g3⟩ := assign2' v fj (p := 0) (q := n) (r := j) (t := m) h2 (by simpa using hfj) (by omega) (by omega)
      hj (by omega)
    refine ⟨w, ?_, g2, ?_⟩
    · unfold insertRightEdge
      rw [ha]
      simp only [h1]
      exact g1
    · intro x y hx hy
      rw [g3 x y, h3 x y]
      by_cases c1 : j ≤ y
      · rw [if_pos (by omega), if_pos c1]; rfl
      · rw [if_neg (by omega), if_neg c1]
        by_cases c2 : i ≤ x
        · rw [if_pos (by omega), if_pos c2]; rfl
        · rw [if_neg (by omega), if_neg c2]

theorem copy_eq (a : Nd V) {n m l i j : Nat} (ha : a.shape = [n, m, l]) (hi : i ≤ n) (hj : j ≤ m) :
    ∃ ei ej, copyRightEdge a i j = .ok (ei, ej) ∧ ei.shape = [n - i, m, l] ∧ ej.shape = [n, m - j, l] ∧
      ∀ x y z, ei.get [x, y, z] = a.get [i + x, y, z] ∧ ej.get [x, y, z] = a.get [x, j + y, z] := by
  have h1 := cut3 a (oi := i) (si := n - i) (oj := 0) (sj := m) (ok := 0) (sk := l) ha (by omega) (by omega) (by omega)
  have h2 := cut3 a (oi := 0) (si := n) (oj := j) (sj := m - j) (ok := 0) (sk := l) ha (by omega) (by omega) (by omega)
  rw [show i + (n - i) = n by omega, Nat.zero_add, Nat.zero_add] at h1
  rw [show j + (m - j) = m by omega, Nat.zero_add, Nat.zero_add] at h2
  refine ⟨⟨[n - i, m, l], fun idx => a.get (List.zipWith (fun (r : Nat × Nat) i => r.1 + i) [(i, n - i), (0, m), (0, l)] idx)⟩,
    ⟨[n, m - j, l], fun idx => a.get (List.zipWith (fun (r : Nat × Nat) i => r.1 + i) [(0, n), (j, m - j), (0, l)] idx)⟩,
    ?_, rfl, rfl, ?_⟩
  · unfold copyRightEdge
    rw [ha]
    simp only [h1, h2]
    rfl
  · intro x y z
    simp [List.zipWith]

/-- What the edges of a wind component keep is exactly what lies after its window of interfaces (`u` of those across `i`, `v` of
those across `j`): inserted in another array, after anything was done with it, they bring back these values and leave the window
and what is before it. -/
theorem C128_edge_halo {L nx ny nz : Nat} {rank : Int} (hL : 0 < L) (a b : Nd V) (ha : a.shape = [nx + 7, ny + 7, nz])
    (hb : b.shape = [nx + 7, ny + 7, nz]) :
    let g := Grid.make (L * nx + 1) (L * ny + 1) nz (L, L) rank
    let restores := fun (w : Window) (e : Except Err (Nd V × Nd V)) => ∃ ei ej v, e = .ok (ei, ej) ∧
      insertRightEdge b ei (w.iend + 1).toNat ej (w.jend + 1).toNat = .ok v ∧ v.shape = b.shape ∧
      ∀ x y z : Nat, x < nx + 7 → y < ny + 7 → z < nz →
        v.get [x, y, z] = if w.iend < x ∨ w.jend < y then a.get [x, y, z] else b.get [x, y, z]
    restores g.x3dComputeDict (g.uvarEdgeHalo a) ∧ restores g.y3dComputeDict (g.vvarEdgeHalo a) := by
  intro g restores
  have hg : g = _ := grid_make (L := L) (nx := nx) (ny := ny) (npz := nz) (rank := rank) (by omega)
  have key : ∀ (w : Window) (i j : Nat), w.iend + 1 = i → w.jend + 1 = j → i ≤ nx + 7 → j ≤ ny + 7 →
      restores w (copyRightEdge a i j) := by
    intro w i j hi hj hi' hj'
    obtain ⟨ei, ej, h1, h2, h3, h4⟩ := copy_eq a ha hi' hj'
    obtain ⟨-, v, g1, g2, g3⟩ := C128_insert b ⟨[i, ny + 7, nz], a.get⟩ ⟨[nx + 7, j, nz], a.get⟩ ei ej hb hi' hj' rfl rfl h2 h3
    refine ⟨ei, ej, v, h1, ?_, by rw [hb]; exact g2, ?_⟩
    · rw [hi, hj]; exact g1
    · intro x y z hx hy hz
      rw [g3 x y z hx hy hz, (h4 x (y - j) z).2, (h4 (x - i) y z).1]
      by_cases c1 : j ≤ y
      · rw [if_pos c1, if_pos (by omega), show j + (y - j) = y by omega]
      · rw [if_neg c1]
        by_cases c2 : i ≤ x
        · rw [if_pos c2, if_pos (by omega), show i + (x - i) = x by omega]
        · rw [if_neg c2, if_neg (by omega)]
  constructor
  · have e1 : g.x3dComputeDict.iend + 1 = ((g.ie + 2).toNat : Int) := by rw [hg]; simp only [x3dComputeDict]; omega
    have e2 : g.x3dComputeDict.jend + 1 = ((g.je + 1).toNat : Int) := by rw [hg]; simp only [x3dComputeDict]; omega
    exact key _ _ _ e1 e2 (by rw [hg]; simp only; omega) (by rw [hg]; simp only; omega)
  · have e1 : g.y3dComputeDict.iend + 1 = ((g.ie + 1).toNat : Int) := by rw [hg]; simp only [y3dComputeDict]; omega
    have e2 : g.y3dComputeDict.jend + 1 = ((g.je + 2).toNat : Int) := by rw [hg]; simp only [y3dComputeDict]; omega
    exact key _ _ _ e1 e2 (by rw [hg]; simp only; omega) (by rw [hg]; simp only; omega)

/-- Copying needs three dimensions, although inserting does not. -/
theorem C128_copy_plane_violated : ∃ a : Nd Nat, a.shape = [9, 9] ∧ copyRightEdge a 5 5 = .error .indexError :=
  ⟨⟨[9, 9], fun _ => 0⟩, rfl, rfl⟩

/-! ### sizes and corners -/

/-- A rank is at a corner of its tile exactly if the partitioner has it there. -/
theorem C128_corners {L nx ny nz : Nat} {rank : Int} (hL : 0 < L) (hx : 0 < nx) (hy : 0 < ny) :
    let g := Grid.make (L * nx + 1) (L * ny + 1) nz (L, L) rank
    let s := subtileIndex rank ((L : Int) * L) (L, L)
    (g.swCorner = true ↔ s.1 = 0 ∧ s.2 = 0) ∧ (g.seCorner = true ↔ s.1 = 0 ∧ s.2 = L - 1) ∧
    (g.nwCorner = true ↔ s.1 = L - 1 ∧ s.2 = 0) ∧ (g.neCorner = true ↔ s.1 = L - 1 ∧ s.2 = L - 1) := by
  intro g s
  obtain ⟨-, -, -, -, -, -, -, -, h1, h2, h3, h4⟩ := C100_grid (L := L) (nx := nx) (ny := ny) (npz := nz) (rank := rank) (by omega)
    (by omega) (by omega)
  unfold swCorner seCorner nwCorner neCorner
  rw [show g.west = _ from h1, show g.east = _ from h2, show g.south = _ from h3, show g.north = _ from h4]
  simp only [onTileLeft, onTileRight, onTileBottom, onTileTop, Bool.and_eq_true, beq_iff_eq]
  refine ⟨and_comm, and_comm, and_comm, and_comm⟩

/-- The indexing of stencils made from the grid has the same cells and halo, and the same edges. -/
theorem C128_indexing {L nx ny nz : Nat} {rank : Int} (hL : 0 < L) :
    let g := Grid.make (L * nx + 1) (L * ny + 1) nz (L, L) rank
    g.gridIndexing.isc = g.is_ ∧ g.gridIndexing.iec = g.ie ∧ g.gridIndexing.jsc = g.js ∧ g.gridIndexing.jec = g.je ∧
    g.gridIndexing.isd = g.isd ∧ g.gridIndexing.ied = g.ied ∧ g.gridIndexing.jsd = g.jsd ∧ g.gridIndexing.jed = g.jed ∧
    g.gridIndexing.domain.2.2 = nz ∧ g.gridIndexing.westEdge = g.west ∧ g.gridIndexing.eastEdge = g.east ∧
    g.gridIndexing.southEdge = g.south ∧ g.gridIndexing.northEdge = g.north := by
  intro g
  have hg : g = _ := grid_make (L := L) (nx := nx) (ny := ny) (npz := nz) (rank := rank) (by omega)
  refine ⟨?_, ?_, ?_, ?_, ?_, ?_, ?_, ?_, ?_, rfl, rfl, rfl, rfl⟩ <;> rw [hg] <;>
    simp only [gridIndexing, Indexing.GridIndexing.isc, Indexing.GridIndexing.iec, Indexing.GridIndexing.jsc,
      Indexing.GridIndexing.jec, Indexing.GridIndexing.isd, Indexing.GridIndexing.ied, Indexing.GridIndexing.jsd,
      Indexing.GridIndexing.jed, Indexing.GridIndexing.origin, domainShapeCompute, nic, njc, halo] <;> omega

/-- The sizes used for allocating are those of the grid. -/
theorem C128_sizes {fl : FloatOps} (hfl : Zarr.EvenOps fl) {L nx ny nz : Nat} {rank : Int} {pad : Bool} (hL : 0 < L) (hx : 3 < nx)
    (hy : 3 < ny) :
    let g := Grid.make (L * nx + 1) (L * ny + 1) nz (L, L) rank
    g.sizer fl (L, L) pad = .ok ⟨nx, ny, nz, 3, [], pad⟩ ∧ g.nic = nx ∧ g.njc = ny := by
  intro g
  have hg : g = _ := grid_make (L := L) (nx := nx) (ny := ny) (npz := nz) (rank := rank) (by omega)
  refine ⟨?_, by rw [hg]; simp only [nic]; omega, by rw [hg]; simp only [njc]; omega⟩
  let e : Dim → Int := fun d => if d.isJ = true then ny else nx
  have acc := Zarr.accepted fl hfl L L (by omega) (by omega) [.j, .i] e (by
    intro d hd
    simp only [List.mem_cons, List.not_mem_nil, or_false] at hd
    rcases hd with rfl | rfl <;> simp [Zarr.cellsOf, Dim.isInterface, e, Dim.isJ] <;> omega)
  have hshape : Zarr.tileShape e (L, L) [.j, .i] = [L * ny, L * nx] := by
    simp [Zarr.tileShape, Zarr.cellsOf, Zarr.along, Dim.isHorizontal, Dim.isInterface, e, Dim.isJ, Dim.isI, Int.mul_comm]
  have hexts : ([.j, .i].map fun d => (Zarr.cellsOf d (e d), Zarr.cellsOf d (e d))) = [((ny : Int), (ny : Int)), (nx, nx)] := by
    simp [Zarr.cellsOf, Dim.isInterface, e, Dim.isJ]
  rw [hshape, hexts] at acc
  have hsl : (TilePart.mk (L, L)).subtileSlice fl 0 [.j, .i] [L * ny, L * nx] true = .ok [⟨0, ny⟩, ⟨0, nx⟩] := by
    have hsub : (TilePart.mk (L, L)).subtileIndex 0 = (0, 0) := by
      show ((0 % _) / _, (0 % _) % _) = _
      simp
    unfold TilePart.subtileSlice
    rw [hsub]
    refine (rankSlice_eq fl [.j, .i] [L * ny, L * nx] (L, L) (0, 0) true (by decide) rfl _).2 ⟨_, acc, ?_⟩
    have bx := dimSlice_horizontal (L, L) (0, 0) true .i nx nx rfl (by simp [idx, Dim.isJ])
    have byy := dimSlice_horizontal (L, L) (0, 0) true .j ny ny rfl (by simp [idx, Dim.isJ])
    simp only [Zarr.bnd_even, idx, cnt, Dim.isJ, Dim.isI, Dim.isInterface, Bool.false_eq_true, if_false, if_true] at bx byy
    show [_, _] = [dimSlice (L, L) (0, 0) true .j ny ny, dimSlice (L, L) (0, 0) true .i nx nx]
    rw [bx, byy]
    simp
  rw [hg]
  unfold sizer Sizer.fromTileParams
  simp only [show (L * nx + 1 - 1 : Int) = L * nx by omega, show (L * ny + 1 - 1 : Int) = L * ny by omega]
  rw [hsl]
  show (if (nx : Int) - 0 ≤ halo then _ else _) = _
  rw [if_neg (by simp only [halo]; omega), if_neg (by simp only [halo]; omega)]
  simp [halo, pure, Except.pure]

/-- If the layout is not square they are not: the grid divides the tile's points along `x` by the first number of the layout,
which is that of `y`. -/
theorem C128_layout_violated : ∃ g, g = Grid.make 17 17 2 (1, 2) 0 ∧ (g.nic, g.njc) = (16, 8) ∧
    (g.sizer exactOps (1, 2) false).toOption = some ⟨8, 16, 2, 3, [], false⟩ := ⟨_, rfl, rfl, rfl⟩

example : (Grid.make 17 17 2 (2, 2) 3).computeDict = ⟨3, 10, 3, 10, 0, 1⟩ := by decide +kernel

end NDSL.Translate
