import Verif.Props.Translate
import Verif.Props.GridIndexing

/-! C100, C70: results of a translate test with one or two axes, and indices relative to an edge. -/
namespace NDSL.Translate

open NDSL.Storage

variable {V : Type}

theorem sliceOf_nat (s p : Nat) : sliceOf ((s : Int), (s : Int) + p - 1) = .ok (s, s + p) := by
  have e1 : nat (s : Int) = .ok s := by simp [nat]
  have e2 : nat ((s : Int) + p - 1 + 1) = .ok (s + p) := by
    unfold nat
    rw [if_neg (by omega)]
    congr 1; omega
  simp only [sliceOf, e1, e2, bind, Except.bind]; rfl

/-- **C100**: of a result with one axis, the levels of its region are compared, whatever the region along the other axes -/
theorem C100_line {N : Count V} {g : Grid} {i : Info} {a : Nd V} {n s p : Nat} {x y : Int × Int} (ha : a.shape = [n])
    (hi : i.indexVariable = false) (hr : region g i = .ok [x, y, ((s : Int), (s : Int) + p - 1)]) (hp : p ≠ 1) (hn : s + p ≤ n) :
    ∃ b, cutArray N g i a = .ok b ∧ b.shape = [p] ∧ ∀ k, k < p → b.get [k] = a.get [s + k] := by
  have e0 : min s n = s := by omega
  have e1 : min (s + p) n = s + p := by omega
  have hsl : sliceDict [x, y, ((s : Int), (s : Int) + p - 1)] (min a.shape.length 3) = .ok [(s, s + p)] := by
    simp [ha, sliceDict, sliceOf_nat, bind, Except.bind, pure, Except.pure]
  have hc : cut (counted N.inc i a) [(s, s + p)] = .ok ⟨[p], fun idx => a.get (List.zipWith (fun (r : Nat × Nat) i => r.1 + i) [(s, p)] idx)⟩ := by
    simp [counted, hi, cut, ha, regions, e0, e1]
  refine ⟨squeeze ⟨[p], fun idx => a.get (List.zipWith (fun (r : Nat × Nat) i => r.1 + i) [(s, p)] idx)⟩, ?_, ?_, fun k hk => ?_⟩
  · unfold cutArray
    rw [hr]
    simp only [bind, Except.bind]
    rw [hsl]
    simp only [ha, List.drop, List.map_nil, List.append_nil, hc]
    rfl
  · rw [squeeze_shape _ (by simpa using hp)]
  · rw [squeeze_get _ (by simpa using hp) _ (by simp)]
    rfl

/-- **C100**: of a result with two axes, the part of its region along the first two is compared -/
theorem C100_plane {N : Count V} {g : Grid} {i : Info} {a : Nd V} {m n s t p q : Nat} {x : Int × Int} (ha : a.shape = [m, n])
    (hi : i.indexVariable = false)
    (hr : region g i = .ok [((s : Int), (s : Int) + p - 1), ((t : Int), (t : Int) + q - 1), x]) (hp : p ≠ 1) (hq : q ≠ 1)
    (hm : s + p ≤ m) (hn : t + q ≤ n) :
    ∃ b, cutArray N g i a = .ok b ∧ b.shape = [p, q] ∧ ∀ j k, j < p → k < q → b.get [j, k] = a.get [s + j, t + k] := by
  have e0 : min s m = s := by omega
  have e1 : min (s + p) m = s + p := by omega
  have f0 : min t n = t := by omega
  have f1 : min (t + q) n = t + q := by omega
  have hsl : sliceDict [((s : Int), (s : Int) + p - 1), ((t : Int), (t : Int) + q - 1), x] (min a.shape.length 3) =
      .ok [(s, s + p), (t, t + q)] := by
    simp [ha, sliceDict, sliceOf_nat, bind, Except.bind, pure, Except.pure]
  have hc : cut (counted N.inc i a) [(s, s + p), (t, t + q)] =
      .ok ⟨[p, q], fun idx => a.get (List.zipWith (fun (r : Nat × Nat) i => r.1 + i) [(s, p), (t, q)] idx)⟩ := by
    simp [counted, hi, cut, ha, regions, e0, e1, f0, f1]
  have hno : ∀ k ∈ [p, q], k ≠ 1 := by simp [hp, hq]
  refine ⟨squeeze ⟨[p, q], fun idx => a.get (List.zipWith (fun (r : Nat × Nat) i => r.1 + i) [(s, p), (t, q)] idx)⟩, ?_, ?_,
    fun j k _ _ => ?_⟩
  · unfold cutArray
    rw [hr]
    simp only [bind, Except.bind]
    rw [hsl]
    simp only [ha, List.drop, List.map_nil, List.append_nil, hc]
    rfl
  · rw [squeeze_shape _ hno]
  · rw [squeeze_get _ hno _ (by simp)]
    rfl

/-- Levels 1 to 3 of a column of five, and a plane of a rank with four by four cells. -/
example : region (grid4 5) { kstart := some (.num 1), kend := some (.num 3) } =
    .ok [(0, 9), (0, 9), (((1 : Nat) : Int), ((1 : Nat) : Int) + (3 : Nat) - 1)] := by decide +kernel
example : region (grid4 5) (cells 0 0 5) =
    .ok [(((3 : Nat) : Int), ((3 : Nat) : Int) + (4 : Nat) - 1), (((3 : Nat) : Int), ((3 : Nat) : Int) + (4 : Nat) - 1), (0, 4)] := by
  decide +kernel

end NDSL.Translate

namespace NDSL.Indexing

/-- **C70**: at an edge, an index of a stencil `off` points from the edge index is the point `off` points from the edge -/
theorem C70_offset (g : GridIndexing) (origin domain : Index3) (off : Int) :
    let a := axisOffsets g origin domain
    (g.westEdge = true → (a.iStart.plus off).absolute origin.1 domain.1 = g.nHalo + off) ∧
    (g.eastEdge = true → (a.iEnd.plus off).absolute origin.1 domain.1 = g.nHalo + g.domain.1 - 1 + off) ∧
    (g.southEdge = true → (a.jStart.plus off).absolute origin.2.1 domain.2.1 = g.nHalo + off) ∧
    (g.northEdge = true → (a.jEnd.plus off).absolute origin.2.1 domain.2.1 = g.nHalo + g.domain.2.1 - 1 + off) := by
  simp only [axisOffsets, GridIndexing.origin]
  refine ⟨?_, ?_, ?_, ?_⟩ <;> intro h <;> rw [if_pos h] <;> simp only [AxisIndex.plus, AxisIndex.absolute] <;> omega

example : exGrid.westEdge = true ∧ exGrid.southEdge = true := by decide

end NDSL.Indexing
