import Verif.Model.Reduce
/-
Property C103: reductions over all ranks and the communicators of tiles.
-/
namespace NDSL.Reduce
variable {V : Type}

/-! ### Specification -/

/-- All of the values put together. -/
def total (f : V → V → V) : List V → Option V
  | [] => none
  | a :: l => some (l.foldl f a)

def Assoc (f : V → V → V) : Prop := ∀ x y z, f (f x y) z = f x (f y z)

/-- The values of the ranks `ranks` at element `i`. -/
def column (x : Nat → Arr V) (ranks : List Nat) (i : Nat) : List V := ranks.filterMap fun r => (x r).data[i]?

/-- Arrays of `m` elements. -/
def Same (x : Nat → Arr V) (ranks : List Nat) (shape : List Nat) (m : Nat) : Prop :=
  ∀ r ∈ ranks, (x r).shape = shape ∧ (x r).data.length = m

/-- The operators that act on whole arrays. -/
def Op.array : Op → Bool
  | .sum | .prod | .band | .bor | .bxor => true
  | _ => false

/-! ### Proofs -/

theorem foldl_assoc {f : V → V → V} (h : Assoc f) (a b : V) (l : List V) : f a (l.foldl f b) = l.foldl f (f a b) := by
  induction l generalizing b with
  | nil => rfl
  | cons c l ih => rw [List.foldl_cons, List.foldl_cons, ih, h]

theorem total_append {f : V → V → V} (h : Assoc f) {l m : List V} {a b : V} (ha : total f l = some a)
    (hb : total f m = some b) : total f (l ++ m) = some (f a b) := by
  cases l with
  | nil => cases ha
  | cons x l =>
    cases m with
    | nil => cases hb
    | cons y m =>
      cases ha; cases hb
      show some ((l ++ y :: m).foldl f x) = _
      rw [List.foldl_append, List.foldl_cons, foldl_assoc h]

theorem column_append (x : Nat → Arr V) (l m : List Nat) (i : Nat) : column x (l ++ m) i = column x l i ++ column x m i := by
  unfold column; rw [List.filterMap_append]

/-- Buffers: each element is the total of the ranks' elements. -/
theorem buffers_total (E : Elem V) (op : Op) (h : Assoc (op.elem E)) (x : Nat → Arr V) (shape : List Nat) (m : Nat) :
    ∀ t : Tree, Same x t.ranks shape m →
      (reduceBuffers E op x t).shape = shape ∧ (reduceBuffers E op x t).data.length = m ∧
      ∀ i, i < m → ∃ v, (reduceBuffers E op x t).data[i]? = some v ∧ total (op.elem E) (column x t.ranks i) = some v
  | .rank r, hs => by
    obtain ⟨h1, h2⟩ := hs r (by simp [Tree.ranks])
    refine ⟨h1, h2, fun i hi => ⟨(x r).data[i]'(by omega), List.getElem?_eq_getElem _, ?_⟩⟩
    simp only [Tree.ranks, column, List.filterMap_cons, List.filterMap_nil, List.getElem?_eq_getElem (show i < (x r).data.length by omega)]
    rfl
  | .node a b, hs => by
    obtain ⟨a1, a2, a3⟩ := buffers_total E op h x shape m a (fun r hr => hs r (by simp [Tree.ranks, hr]))
    obtain ⟨b1, b2, b3⟩ := buffers_total E op h x shape m b (fun r hr => hs r (by simp [Tree.ranks, hr]))
    refine ⟨a1, ?_, fun i hi => ?_⟩
    · simp only [reduceBuffers, bufferOp, List.length_zipWith, a2, b2, Nat.min_self]
    · obtain ⟨v, v1, v2⟩ := a3 i hi
      obtain ⟨w, w1, w2⟩ := b3 i hi
      refine ⟨op.elem E v w, ?_, ?_⟩
      · simp only [reduceBuffers, bufferOp, List.getElem?_zipWith, v1, w1]
      · rw [Tree.ranks, column_append]
        exact total_append h v2 w2

theorem objects_eq (E : Elem V) (op : Op) (ha : op.array = true) (x : Nat → Arr V) :
    ∀ t : Tree, reduceObjects E op x t = .ok (reduceBuffers E op x t)
  | .rank r => rfl
  | .node a b => by
    rw [reduceObjects, objects_eq E op ha x a, objects_eq E op ha x b]
    cases op <;> first | rfl | cases ha

/-- C103: summing (or another operator on arrays) gives every rank, whatever the order in which MPI puts the contributions
together, a new quantity each element of which is the total of the ranks' elements, halos included, with the units,
dimensions, origin and extent of the rank's own. -/
theorem C103_sum (E : Elem V) (op : Op) (ha : op.array = true) (h : Assoc (op.elem E)) (floats : List String)
    (Float : String) (n : Nat) (t : Tree) (ht : t.ranks = List.range n) (input : Nat → Qty V) (shape : List Nat) (m : Nat)
    (hs : Same (fun r => (input r).arr) (List.range n) shape m) (r : Nat)
    (hf : ¬ ((input r).info.dtype ∈ floats ∧ (input r).info.dtype ≠ Float)) :
    ∃ q, allReduce E floats Float op t input r none = .ok q ∧ q.arr.shape = shape ∧ q.arr.data.length = m ∧
      (∀ i, i < m → q.arr.data[i]? = total (op.elem E) (column (fun r => (input r).arr) (List.range n) i)) ∧
      q.info.units = (input r).info.units ∧ q.info.dims = (input r).info.dims ∧ q.info.origin = (input r).info.origin ∧
      q.info.extent = (input r).info.extent ∧ q.viewOrigin = q.info.origin ∧ q.viewExtent = q.info.extent := by
  obtain ⟨h1, h2, h3⟩ := buffers_total E op h (fun r => (input r).arr) shape m t (by rw [ht]; exact hs)
  refine ⟨⟨reduceBuffers E op (fun r => (input r).arr) t, { (input r).info with nHalo := 0 }, (input r).info.origin,
    (input r).info.extent⟩, ?_, h1, h2, fun i hi => ?_, rfl, rfl, rfl, rfl, rfl, rfl⟩
  · rw [allReduce, objects_eq E op ha]
    exact if_neg hf
  · obtain ⟨v, v1, v2⟩ := h3 i hi
    rw [v1, ← v2, ht]

/-- C103: with a quantity for the result, of the input's shape, it is the totals that are put there, with the input's
metadata; the number of halo points and the attributes of the view are those it had. -/
theorem C103_output (E : Elem V) (op : Op) (ha : op.array = true) (h : Assoc (op.elem E)) (floats : List String)
    (Float : String) (n : Nat) (t : Tree) (ht : t.ranks = List.range n) (input : Nat → Qty V) (shape : List Nat) (m : Nat)
    (hs : Same (fun r => (input r).arr) (List.range n) shape m) (r : Nat) (hr : r < n) (out : Qty V)
    (ho : out.arr.shape = shape) :
    ∃ q, allReduce E floats Float op t input r (some out) = .ok q ∧ q.arr.shape = shape ∧ q.arr.data.length = m ∧
      (∀ i, i < m → q.arr.data[i]? = total (op.elem E) (column (fun r => (input r).arr) (List.range n) i)) ∧
      q.info = { (input r).info with nHalo := out.info.nHalo } := by
  obtain ⟨h1, h2, h3⟩ := buffers_total E op h (fun r => (input r).arr) shape m t (by rw [ht]; exact hs)
  refine ⟨{ out with arr := reduceBuffers E op (fun r => (input r).arr) t, info := duplicate (input r).info out.info },
    ?_, h1, h2, fun i hi => ?_, rfl⟩
  · rw [allReduce, objects_eq E op ha]
    have := (hs r (List.mem_range.mpr hr)).1
    exact if_neg (by rw [ho, ← this]; exact fun hne => hne rfl)
  · obtain ⟨v, v1, v2⟩ := h3 i hi
    rw [v1, ← v2, ht]

/-- C103: a quantity of another shape for the result is refused. -/
theorem C103_shape (E : Elem V) (op : Op) (ha : op.array = true) (floats : List String) (Float : String) (t : Tree)
    (input : Nat → Qty V) (r : Nat) (out : Qty V) (ho : out.arr.shape ≠ (input r).arr.shape) :
    allReduce E floats Float op t input r (some out) = .error .typeError := by
  rw [allReduce, objects_eq E op ha]
  exact if_pos ho

/-- C103: the reduction per element, also of the largest and the smallest, puts the totals into the quantity for the
result, and in place into every rank's own, and changes nothing else of it. -/
theorem C103_elements (E : Elem V) (op : Op) (h : Assoc (op.elem E)) (n : Nat) (t : Tree) (ht : t.ranks = List.range n)
    (input : Nat → Qty V) (shape : List Nat) (m : Nat) (hs : Same (fun r => (input r).arr) (List.range n) shape m) :
    (∀ out : Qty V, (perElement E op t input out).info = out.info ∧
      (perElement E op t input out).viewOrigin = out.viewOrigin ∧
      (perElement E op t input out).viewExtent = out.viewExtent ∧
      (perElement E op t input out).arr.shape = out.arr.shape ∧
      ∀ i, i < m → (perElement E op t input out).arr.data[i]? =
        total (op.elem E) (column (fun r => (input r).arr) (List.range n) i)) ∧
    ∀ r, (perElementInPlace E op t input r).info = (input r).info ∧
      (perElementInPlace E op t input r).arr.shape = (input r).arr.shape ∧
      ∀ i, i < m → (perElementInPlace E op t input r).arr.data[i]? =
        total (op.elem E) (column (fun r => (input r).arr) (List.range n) i) := by
  obtain ⟨-, -, h3⟩ := buffers_total E op h (fun r => (input r).arr) shape m t (by rw [ht]; exact hs)
  have key : ∀ i, i < m → (reduceBuffers E op (fun r => (input r).arr) t).data[i]? =
      total (op.elem E) (column (fun r => (input r).arr) (List.range n) i) := by
    intro i hi
    obtain ⟨v, v1, v2⟩ := h3 i hi
    rw [v1, ← v2, ht]
  exact ⟨fun out => ⟨rfl, rfl, rfl, rfl, key⟩, fun r => ⟨rfl, rfl, key⟩⟩

theorem foldl_sum (f : Int → Int → Int) (hf : ∀ x y, f x y = x + y) (a : Int) (l : List Int) : l.foldl f a = a + l.sum := by
  induction l generalizing a with
  | nil => simp
  | cons b l ih => rw [List.foldl_cons, ih, hf, List.sum_cons, Int.add_assoc]

theorem foldl_prod (f : Int → Int → Int) (hf : ∀ x y, f x y = x * y) (a : Int) (l : List Int) :
    l.foldl f a = a * l.foldr (· * ·) 1 := by
  induction l generalizing a with
  | nil => simp
  | cons b l ih => rw [List.foldl_cons, ih, hf, List.foldr_cons, Int.mul_assoc]

theorem foldl_pick (f : Int → Int → Int) (le : Int → Int → Prop) (hrefl : ∀ x, le x x)
    (htrans : ∀ x y z, le x y → le y z → le x z) (hl : ∀ x y, le x (f x y)) (hr : ∀ x y, le y (f x y))
    (hp : ∀ x y, f x y = x ∨ f x y = y) (a : Int) (l : List Int) :
    l.foldl f a ∈ a :: l ∧ ∀ w ∈ a :: l, le w (l.foldl f a) := by
  induction l generalizing a with
  | nil => exact ⟨List.mem_cons_self, fun w hw => by rw [List.mem_singleton] at hw; rw [hw]; exact hrefl a⟩
  | cons b l ih =>
    obtain ⟨h1, h2⟩ := ih (f a b)
    rw [List.foldl_cons]
    have h0 := h2 _ List.mem_cons_self
    refine ⟨?_, fun w hw => ?_⟩
    · rcases List.mem_cons.mp h1 with h | h
      · rw [h]
        rcases hp a b with e | e <;> rw [e] <;> simp
      · simp [h]
    · rcases List.mem_cons.mp hw with rfl | hw
      · exact htrans _ _ _ (hl _ b) h0
      · rcases List.mem_cons.mp hw with rfl | hw
        · exact htrans _ _ _ (hr a _) h0
        · exact h2 w (List.mem_cons_of_mem _ hw)

/-- C103: on integers, totals are the sum, the product, the largest and the least of the ranks' values; the bitwise
operators are those of the elements, `REPLACE` gives the last rank's value and `NO_OP` the first's. -/
theorem C103_meaning (E : Elem Int) (hadd : ∀ x y, E.add x y = x + y) (hmul : ∀ x y, E.mul x y = x * y)
    (hlt : ∀ x y, E.lt x y = decide (x < y)) (l : List Int) (v : Int) :
    (total (Op.sum.elem E) l = some v → v = l.sum) ∧
    (total (Op.prod.elem E) l = some v → v = l.foldr (· * ·) 1) ∧
    (total (Op.max.elem E) l = some v → v ∈ l ∧ ∀ w ∈ l, w ≤ v) ∧
    (total (Op.min.elem E) l = some v → v ∈ l ∧ ∀ w ∈ l, v ≤ w) ∧
    total (Op.band.elem E) l = total E.and l ∧ total (Op.bor.elem E) l = total E.or l ∧
    total (Op.bxor.elem E) l = total E.xor l ∧
    (total (Op.replace.elem E) l = some v → l.getLast? = some v) ∧
    (total (Op.noOp.elem E) l = some v → l.head? = some v) := by
  cases l with
  | nil => refine ⟨?_, ?_, ?_, ?_, rfl, rfl, rfl, ?_, ?_⟩ <;> intro h <;> cases h
  | cons a l =>
    refine ⟨fun h => ?_, fun h => ?_, fun h => ?_, fun h => ?_, rfl, rfl, rfl, fun h => ?_, fun h => ?_⟩ <;>
      rw [total, Option.some.injEq] at h <;> subst h
    · rw [foldl_sum (Op.sum.elem E) hadd, List.sum_cons]
    · rw [foldl_prod (Op.prod.elem E) hmul, List.foldr_cons]
    · refine foldl_pick _ (· ≤ ·) Int.le_refl (fun _ _ _ => Int.le_trans) ?_ ?_ ?_ a l <;> intro x y <;>
        simp only [Op.elem, hlt, decide_eq_true_eq] <;> split <;> first | omega | simp
    · refine foldl_pick _ (fun x y => y ≤ x) Int.le_refl (fun _ _ _ h1 h2 => Int.le_trans h2 h1) ?_ ?_ ?_ a l <;> intro x y <;>
        simp only [Op.elem, hlt, decide_eq_true_eq] <;> split <;> first | omega | simp
    · clear hadd hmul hlt
      induction l generalizing a with
      | nil => rfl
      | cons b l ih => rw [List.getLast?_cons_cons, ih b]; rfl
    · clear hadd hmul hlt
      induction l generalizing a with
      | nil => rfl
      | cons b l ih => exact ih a

/-! ### Communicators of tiles -/

theorem splits_append (s : Shared) (l : List Nat) (c : Nat) :
    localSplits s (l ++ [c]) = ((localSplit (localSplits s l).1 c).1, (localSplits s l).2 ++ [(localSplit (localSplits s l).1 c).2]) := by
  induction l generalizing s with
  | nil => rfl
  | cons d l ih =>
    rw [List.cons_append, localSplits, ih]
    rfl

/-- What is known after the ranks before `n` have split. -/
theorem splits_state (color : Nat → Nat) : ∀ n : Nat,
    (∀ c, (localSplits (fun _ => []) ((List.range n).map color)).1 c =
      List.replicate ((List.range n).countP fun m => color m = c) ((List.range n).countP fun m => color m = c)) ∧
    (localSplits (fun _ => []) ((List.range n).map color)).2 =
      (List.range n).map fun r => (List.range r).countP fun m => color m = color r
  | 0 => ⟨fun _ => rfl, rfl⟩
  | n + 1 => by
    obtain ⟨h1, h2⟩ := splits_state color n
    rw [List.range_succ, List.map_append, List.map_cons, List.map_nil, splits_append]
    refine ⟨fun c => ?_, ?_⟩
    · simp only [localSplit, List.countP_append, List.countP_cons, List.countP_nil]
      by_cases hc : c = color n
      · subst hc
        simp only [if_true, h1, List.length_replicate, List.map_replicate, decide_true]
        rw [← List.replicate_succ', Nat.zero_add]
      · have hc' : ¬ color n = c := fun h => hc h.symm
        simp only [if_neg hc, h1, hc', decide_false, Bool.false_eq_true, if_false, Nat.add_zero]
    · simp only [localSplit, h2, h1, List.length_replicate, List.map_append, List.map_cons, List.map_nil]

theorem countP_before (color : Nat → Nat) (n r : Nat) (hr : r ≤ n) (c : Nat) :
    (List.range n).countP (fun m => color m = c ∧ m < r) = (List.range r).countP fun m => color m = c := by
  induction n with
  | zero => have : r = 0 := by omega
            subst this; rfl
  | succ n ih =>
    by_cases h : r = n + 1
    · subst h
      refine List.countP_congr fun m hm => ?_
      have := List.mem_range.mp hm
      simp [this]
    · rw [List.range_succ, List.countP_append, ih (by omega)]
      have : ¬ n < r := by omega
      simp [this]

/-- C103: when the ranks split one after the other, from the least to the greatest, with their rank as key, `LocalComm`s
give every rank the rank and size that MPI gives. -/
theorem C103_split (color : Nat → Nat) (n r : Nat) (hr : r < n) :
    (localSplits (fun _ => []) ((List.range n).map color)).2[r]? = some (mpiSplit n color id r).1 ∧
    ((localSplits (fun _ => []) ((List.range n).map color)).1 (color r))[(mpiSplit n color id r).1]? =
      some (mpiSplit n color id r).2 := by
  obtain ⟨h1, h2⟩ := splits_state color n
  have e : (mpiSplit n color id r).1 = (List.range r).countP fun m => color m = color r := by
    rw [← countP_before color n r (by omega)]
    unfold mpiSplit
    refine List.countP_congr fun m _ => ?_
    simp only [id, decide_eq_true_eq]
    constructor
    · rintro ⟨a, b⟩; exact ⟨a, by omega⟩
    · rintro ⟨a, b⟩; exact ⟨a, by omega⟩
  have hlt : (List.range r).countP (fun m => color m = color r) < (List.range n).countP fun m => color m = color r := by
    have h3 : (List.range (r + 1)).countP (fun m => color m = color r) =
        (List.range r).countP (fun m => color m = color r) + 1 := by
      rw [List.range_succ, List.countP_append]; simp
    have h4 : (List.range n).countP (fun m => color m = color r ∧ m < r + 1) ≤
        (List.range n).countP fun m => color m = color r :=
      List.countP_mono_left fun m _ h => by simp only [decide_eq_true_eq] at h ⊢; exact h.1
    rw [countP_before color n (r + 1) (by omega)] at h4
    omega
  constructor
  · rw [h2, e, List.getElem?_map, List.getElem?_range hr]; rfl
  · rw [h1, e, List.getElem?_replicate, if_pos hlt]; rfl

theorem count_tile (k : Nat) (hk : 0 < k) (t : Nat) : ∀ n : Nat,
    (List.range n).countP (fun m => m / k = t) = min n ((t + 1) * k) - min n (t * k)
  | 0 => by simp
  | n + 1 => by
    rw [List.range_succ, List.countP_append, count_tile k hk t n]
    have h1 : (t + 1) * k = t * k + k := Nat.succ_mul t k
    by_cases h : n / k = t
    · have h2 := Nat.div_add_mod n k
      have h3 := Nat.mod_lt n hk
      rw [h, Nat.mul_comm] at h2
      simp only [List.countP_cons, List.countP_nil, h, decide_true, if_true]
      omega
    · have : ¬ (t * k ≤ n ∧ n < (t + 1) * k) := fun hc =>
        h (Nat.div_eq_of_lt_le hc.1 hc.2)
      simp only [List.countP_cons, List.countP_nil, h, decide_false, Bool.false_eq_true, if_false]
      omega

theorem tiles_split (k : Nat) (hk : 0 < k) (r : Nat) (hr : r < 6 * k) :
    mpiSplit (6 * k) (fun r => r / k) id r = (r % k, k) := by
  have hd := Nat.div_add_mod r k
  have hm := Nat.mod_lt r hk
  have ht : r / k < 6 := Nat.div_lt_of_lt_mul (by rw [Nat.mul_comm]; exact hr)
  have e : (List.range (6 * k)).countP (fun m => m / k = r / k ∧ m < r) = (List.range r).countP fun m => m / k = r / k :=
    countP_before (fun m => m / k) (6 * k) r (by omega) (r / k)
  have e' : (List.range (6 * k)).countP (fun m => m / k = r / k ∧ (m < r ∨ (m = r ∧ m < r))) =
      (List.range (6 * k)).countP (fun m => m / k = r / k ∧ m < r) := by
    refine List.countP_congr fun m _ => ?_
    simp only [decide_eq_true_eq]
    constructor
    · rintro ⟨a, b⟩; exact ⟨a, by omega⟩
    · rintro ⟨a, b⟩; exact ⟨a, by omega⟩
  have h1 : (r / k + 1) * k = k * (r / k) + k := by rw [Nat.succ_mul, Nat.mul_comm]
  have h2 : (r / k + 1) * k ≤ 6 * k := Nat.mul_le_mul_right _ ht
  have h3 : r / k * k = k * (r / k) := Nat.mul_comm _ _
  refine Prod.ext ?_ ?_
  · show (List.range (6 * k)).countP (fun m => m / k = r / k ∧ (m < r ∨ (m = r ∧ m < r))) = r % k
    rw [e', e, count_tile k hk]
    omega
  · show (List.range (6 * k)).countP (fun m => m / k = r / k) = k
    rw [count_tile k hk]
    omega

theorem tileColor_eq (p : CubePart) (k : Nat) (hk : p.tile.totalRanks = k) (m : Nat) : tileColor p m = m / k := by
  have h1 : 6 * (k : Int) % 6 = 0 := Int.mul_emod_right 6 k
  have h2 : 6 * (k : Int) / 6 = k := Int.mul_ediv_cancel_left k (by decide)
  unfold tileColor CubePart.tileIndex getTileIndex CubePart.totalRanks
  rw [hk, if_neg (by rw [h1]; exact fun h => h rfl), h2]
  show ((m : Int) / (k : Int)).toNat = m / k
  rw [← Int.natCast_ediv]
  rfl

/-- C103: the communicator of a rank's tile has the ranks of the tile, in their order: as many as the layout has, the rank
its number within the tile. -/
theorem C103_tiles (p : CubePart) (k : Nat) (hk : p.tile.totalRanks = k) (h0 : 0 < k) (r : Nat) (hr : r < 6 * k) :
    tileComm p (6 * k) r = (r % k, k) := by
  rw [tileComm, funext (tileColor_eq p k hk)]
  exact tiles_split k h0 r hr

/-! ### What does not hold -/

/-- Not so for the largest or smallest by `all_reduce`: arrays of more than one element are compared as a whole, which
NumPy refuses, whatever the data. -/
theorem C103_max_violated (E : Elem V) (op : Op) (ho : op = .max ∨ op = .min) (floats : List String) (Float : String)
    (l t : Tree) (input : Nat → Qty V) (shape : List Nat) (m : Nat) (hm : m ≠ 1)
    (hs : ∀ r, (input r).arr.shape = shape ∧ (input r).arr.data.length = m) (r : Nat) (out : Option (Qty V)) :
    allReduce E floats Float op (.node l t) input r out = .error .valueError := by
  have key : ∀ x y : Arr V, x.data.length = m → ∀ f, pyChoose f x y = .error .valueError := by
    intro x y hx f
    unfold pyChoose
    split
    · rename_i a b h1 h2
      rw [h1] at hx
      exact absurd hx.symm hm
    · rfl
  have hop : ∀ x y : Arr V, x.data.length = m → objectOp E op x y = .error .valueError := by
    intro x y hx
    rcases ho with rfl | rfl
    · exact key x y hx _
    · exact key x y hx _
  have all : ∀ t : Tree, (∃ x, reduceObjects E op (fun r => (input r).arr) t = .ok x ∧ x.data.length = m) ∨
      reduceObjects E op (fun r => (input r).arr) t = .error .valueError := by
    intro t
    induction t with
    | rank r => exact Or.inl ⟨_, rfl, (hs r).2⟩
    | node a b iha ihb =>
      refine Or.inr ?_
      rw [reduceObjects]
      rcases iha with ⟨x, hx, hl⟩ | hx
      · rcases ihb with ⟨y, hy, -⟩ | hy
        · simp only [hx, hy]; exact hop x y hl
        · simp only [hx, hy]
      · simp only [hx]
  rcases all (.node l t) with ⟨x, hx, -⟩ | hx
  · rw [reduceObjects] at hx
    rcases all l with ⟨y, hy, hl⟩ | hy
    · rcases all t with ⟨z, hz, -⟩ | hz
      · simp only [hy, hz, hop y z hl] at hx; cases hx
      · simp only [hy, hz] at hx; cases hx
    · simp only [hy] at hx; cases hx
  · rw [allReduce, hx]

/-- Not so for halo points: the new quantity is said to have none, whatever the input has, so that its halo cannot be
updated. -/
theorem C103_halo_violated (E : Elem V) (floats : List String) (Float : String) (op : Op) (t : Tree) (input : Nat → Qty V)
    (r : Nat) (q : Qty V) (h : allReduce E floats Float op t input r none = .ok q) : q.info.nHalo = 0 := by
  rw [allReduce] at h
  split at h
  · cases h
  · rw [finish, newQty] at h
    split at h
    · cases h
    · cases h; rfl

/-- Integers. -/
def intElem : Elem Int where
  add := (· + ·)
  mul := (· * ·)
  and := fun a b => ((a.toNat &&& b.toNat : Nat) : Int)
  or := fun a b => ((a.toNat ||| b.toNat : Nat) : Int)
  xor := fun a b => ((a.toNat ^^^ b.toNat : Nat) : Int)
  lt := fun a b => decide (a < b)

/-- Rank `r`'s quantity: three elements, one of them in a halo. -/
def sample (r : Nat) : Qty Int :=
  ⟨⟨[3], [r, 10 * r, 7]⟩, ⟨[1], [2], 1, ["x"], "m", "float64", "numpy"⟩, [1], [2]⟩
def sampleOut : Qty Int := ⟨⟨[3], [0, 0, 0]⟩, ⟨[0], [3], 0, ["x"], "K", "float64", "numpy"⟩, [0], [3]⟩
def three : Tree := .node (.rank 0) (.node (.rank 1) (.rank 2))

/-- Not so for the view of the quantity for the result: origin and extent are the input's afterwards, but the view is still
of the compute domain it had. -/
theorem C103_view_violated :
    (match allReduce intElem ["float64"] "float64" .sum three sample 0 (some sampleOut) with
      | .ok q => some (q.info.origin, q.info.extent, q.viewOrigin, q.viewExtent)
      | .error _ => none) = some ([1], [2], [0], [3]) := by decide +kernel

/-- Not so for `LocalComm`s in another order, or if a second communicator is split in tiles: ranks and sizes are not those
of MPI. -/
theorem C103_order_violated :
    (localSplits (fun _ => []) [1 / 2, 0 / 2]).2 = [0, 1] ∧ (mpiSplit 2 (· / 2) id 1).1 = 1 := by decide +kernel
theorem C103_twice_violated :
    (localSplits (localSplits (fun _ => []) [0, 0]).1 [0, 0]).2 = [2, 3] ∧
    (localSplits (localSplits (fun _ => []) [0, 0]).1 [0, 0]).1 0 = [4, 4, 4, 4] ∧
    mpiSplit 2 (fun _ => 0) id 1 = (1, 2) := by decide +kernel

/-- Not so for reductions on a tile: with MPI, the communicator of a tile is mpi4py's own, which does not know the operators,
so that every reduction of more than one rank fails. -/
theorem C103_tile_reduce_violated (E : Elem V) (op : Op) (x : Nat → Arr V) (l t : Tree) :
    Comm.wrapper.split.allreduce E op x (.node l t) = .error .typeError := rfl

/-! ### Cases -/

/-- `C103_sum`, `C103_output`, `C103_elements` -/
example : three.ranks = List.range 3 ∧ Same (fun r => (sample r).arr) (List.range 3) [3] 3 ∧
    sampleOut.arr.shape = [3] := by
  refine ⟨rfl, ?_, rfl⟩
  intro r _
  exact ⟨rfl, rfl⟩
example : Assoc (Op.sum.elem intElem) := fun x y z => Int.add_assoc x y z
example : Assoc (Op.max.elem intElem) := by
  intro x y z
  simp only [Op.elem, intElem, decide_eq_true_eq]
  repeat' split
  all_goals omega
example : (match allReduce intElem ["float64"] "float64" .sum three sample 0 none with
    | .ok q => some (q.arr.data, q.info.units)
    | .error _ => none) = some ([3, 30, 21], "m") := by decide +kernel
example : (perElementInPlace intElem .max three sample 1).arr.data = [2, 20, 7] := by decide +kernel
/-- `C103_meaning` -/
example : total (Op.min.elem intElem) [3, -1, 2] = some (-1) ∧ total (Op.prod.elem intElem) [3, -1, 2] = some (-6) := by decide +kernel
/-- `C103_split`, `C103_tiles` -/
example : (localSplits (fun _ => []) ((List.range 12).map (tileColor ⟨⟨(1, 2)⟩⟩))).2 =
    [0, 1, 0, 1, 0, 1, 0, 1, 0, 1, 0, 1] ∧ tileComm ⟨⟨(1, 2)⟩⟩ 12 7 = (1, 2) := by decide +kernel

end NDSL.Reduce
