import Verif.Props.ScatterGather

/-! C29: what `scatter` and `gather` return when no receive quantity is given: arrays without halo. -/
namespace NDSL
variable {α : Type}

/-- the quantity has no halo: in every dimension its compute domain begins at index 0 of the array, and it is the
whole array -/
def NoHalo (q : WQty α) : Prop :=
  q.origin.length = q.extent.length ∧ (∀ o ∈ q.origin, o = 0) ∧ q.data.shape = q.extent

theorem noHalo_setAt {q : WQty α} (h : NoHalo q) (lead : List Int) (sl : List Slice) (v : NArr α) :
    NoHalo (q.setAt lead sl v) := h

theorem noHalo_fresh [Inhabited α] (dims : List Dim) (ext : List Int) : NoHalo (freshQty (α := α) dims ext) :=
  ⟨List.length_map _, fun o ho => by
    obtain ⟨_, _, e⟩ := List.mem_map.1 ho
    exact e.symm, rfl⟩

/-- **C29**: whatever the partitioner, each rank that gave no receive quantity gets a quantity without halo -/
theorem C29_scatter_no_halo [Inhabited α] (P : Part) (q : WQty α) (recv : Nat → Option (WQty α))
    (rs : List (WQty α)) (h : scatter P q recv = .ok rs) (r : Nat) (out : WQty α) (hr : rs[r]? = some out)
    (hn : recv r = none) : NoHalo out := by
  obtain ⟨_, h1⟩ := (scatter_get h).2 r out hr
  unfold scatterOne at h1
  rw [hn] at h1
  simp only [bind, Except.bind, Option.getD_none] at h1
  split at h1
  · cases h1
  · split at h1
    · cases h1
    · split at h1
      · cases h1
      · cases h1
        exact noHalo_setAt (noHalo_fresh _ _) _ _ _

/-- **C29**: a rank that gave a receive quantity gets it back with its own dims, origin, extent and array shape -/
theorem C29_scatter_into [Inhabited α] (P : Part) (q : WQty α) (recv : Nat → Option (WQty α))
    (rs : List (WQty α)) (h : scatter P q recv = .ok rs) (r : Nat) (out o : WQty α) (hr : rs[r]? = some out)
    (hn : recv r = some o) : out.dims = o.dims ∧ out.origin = o.origin ∧ out.extent = o.extent ∧
      out.data.shape = o.data.shape := by
  obtain ⟨_, h1⟩ := (scatter_get h).2 r out hr
  unfold scatterOne at h1
  rw [hn] at h1
  simp only [bind, Except.bind, Option.getD_some] at h1
  split at h1
  · cases h1
  · split at h1
    · cases h1
    · split at h1
      · cases h1
      · cases h1
        exact ⟨rfl, rfl, rfl, rfl⟩

theorem gather_loop_keeps {P : Part} {rows : List (NArr α)} : ∀ (l : List Nat) (o out : WQty α),
    l.foldlM (gatherStep P rows) o = .ok out →
    out.dims = o.dims ∧ out.origin = o.origin ∧ out.extent = o.extent ∧ out.data.shape = o.data.shape
  | [], o, out, h => by cases h; exact ⟨rfl, rfl, rfl, rfl⟩
  | r :: l, o, out, h => by
    rw [List.foldlM_cons] at h
    cases hs : gatherStep P rows o r with
    | error e => rw [hs] at h; cases h
    | ok o' =>
      rw [hs] at h
      have hk : o'.dims = o.dims ∧ o'.origin = o.origin ∧ o'.extent = o.extent ∧ o'.data.shape = o.data.shape := by
        unfold gatherStep at hs
        simp only [bind, Except.bind] at hs
        split at hs
        · cases hs
        · split at hs
          · cases hs
          · split at hs
            · cases hs
            · cases hs; exact ⟨rfl, rfl, rfl, rfl⟩
      obtain ⟨a, b, c, d⟩ := gather_loop_keeps l o' out h
      exact ⟨a.trans hk.1, b.trans hk.2.1, c.trans hk.2.2.1, d.trans hk.2.2.2⟩

/-- **C29**: whatever the partitioner, the root that gave no receive quantity gathers into one without halo -/
theorem C29_gather_no_halo [Inhabited α] (P : Part) (sends : List (WQty α)) (g : WQty α)
    (h : gather P sends none = .ok g) : NoHalo g := by
  unfold gather at h
  split at h
  · cases h
  · simp only [bind, Except.bind, Option.getD_none] at h
    split at h
    · cases h
    · obtain ⟨_, b, c, d⟩ := gather_loop_keeps _ _ _ h
      exact ⟨by rw [b, c]; exact (noHalo_fresh _ _).1, by rw [b]; exact (noHalo_fresh _ _).2.1,
        by rw [d, c]; exact (noHalo_fresh (α := α) _ _).2.2⟩

/-- **C29**: and the root that gave one gets it back with its own dims, origin, extent and array shape -/
theorem C29_gather_into [Inhabited α] (P : Part) (sends : List (WQty α)) (o g : WQty α)
    (h : gather P sends (some o) = .ok g) : g.dims = o.dims ∧ g.origin = o.origin ∧ g.extent = o.extent ∧
      g.data.shape = o.data.shape := by
  unfold gather at h
  split at h
  · cases h
  · simp only [bind, Except.bind, Option.getD_some] at h
    split at h
    · cases h
    · exact gather_loop_keeps _ _ _ h

/-! A case: the scatter of `tileQty` to 2 x 3 ranks and back returns. -/

example : (match scatter ((TilePart.mk (2, 3)).part exactOps) tileQty (fun _ => none) with
    | .ok rs => (match gather ((TilePart.mk (2, 3)).part exactOps) rs none with
      | .ok g => [(g.origin, g.extent, g.data.shape)]
      | .error _ => [])
    | .error _ => []) = [([0, 0], [4, 7], [4, 7])] := by decide +kernel

end NDSL
