import Verif.Model.DeviceCopy
import Verif.Props.StorageData
/-
C137: copies between devices and memory for messages.
-/
namespace NDSL.DeviceCopy

open NDSL.Storage

variable {V : Type}

/-- The outcome of a copy does not depend on the devices, if CuPy is there for arrays on a GPU. -/
theorem assign_eq (cp : Bool) (dst src : Arr V) (hc : dst.device = .gpu ∨ src.device = .gpu → cp = true) :
    safeAssign cp dst src = rawAssign dst ⟨dst.device, src.data⟩ := by
  obtain ⟨td, ta⟩ := dst
  obtain ⟨sd, sa⟩ := src
  by_cases h0 : ta.shape = []
  · simp [safeAssign, rawAssign, h0]
  · cases td <;> cases sd
    · cases cp
      · simp only [safeAssign, rawAssign, h0, if_false, if_true]
        cases assign ta [] sa with
        | ok d => rfl
        | error e => simp
      · simp only [safeAssign, rawAssign, h0, if_false, if_true]
        cases assign ta [] sa with
        | ok d => rfl
        | error e => simp
    · obtain rfl := hc (.inr rfl)
      simp [safeAssign, rawAssign, h0]
    · obtain rfl := hc (.inl rfl)
      simp [safeAssign, rawAssign, h0]
    · obtain rfl := hc (.inl rfl)
      simp only [safeAssign, rawAssign, h0, if_false, if_true]
      cases assign ta [] sa with
      | ok d => rfl
      | error e => by_cases he : e = .valueError ∨ e = .typeError <;> simp [he]

theorem within_index : ∀ (shape idx : List Nat), isIndex shape idx → within (shape.map fun n => (0, n)) idx = true
  | [], [], _ => rfl
  | n :: ns, i :: is, h => by simp [within, within_index ns is h.2, h.1]
  | [], _ :: _, h => h.elim
  | _ :: _, [], h => h.elim

theorem off_index : ∀ (shape idx : List Nat), isIndex shape idx →
    List.zipWith (fun i s => if s = 1 then 0 else i)
      (List.zipWith (fun i (r : Nat × Nat) => i - r.1) idx (shape.map fun n => (0, n))) shape = idx
  | [], [], _ => rfl
  | n :: ns, i :: is, h => by
    have := h.1
    simp only [List.map_cons, List.zipWith_cons_cons, off_index ns is h.2, Nat.sub_zero, List.cons.injEq, and_true]
    split <;> omega
  | [], _ :: _, h => h.elim
  | _ :: _, [], h => h.elim

/-- C137: an array is copied to one of the same shape with all its values, from any device to any device; the destination stays on its
device. -/
theorem C137_copy (cp : Bool) (dst src : Arr V) (hc : dst.device = .gpu ∨ src.device = .gpu → cp = true)
    (hs : src.data.shape = dst.data.shape) (h0 : dst.data.shape ≠ []) :
    ∃ r, safeAssign cp dst src = .ok r ∧ r.device = dst.device ∧ r.data.shape = dst.data.shape ∧
      ∀ idx, isIndex dst.data.shape idx → r.data.get idx = src.data.get idx := by
  rw [assign_eq cp dst src hc]
  simp only [rawAssign, h0, if_false, if_true]
  have hr : ∀ s : List Nat, regions s [] = some (s.map fun n => (0, n)) := fun s => by cases s <;> rfl
  have hl : ((dst.data.shape.map fun n => (0, n)).map fun r : Nat × Nat => r.2) = dst.data.shape := by
    rw [List.map_map]; exact List.map_id' _
  simp only [assign, hr, hl, hs, Nat.sub_self, List.drop_zero, List.take_zero, List.all_nil, Bool.true_and, fits_self, if_true]
  refine ⟨_, rfl, rfl, rfl, fun idx hi => ?_⟩
  simp only [within_index _ _ hi, if_true, off_index _ _ hi, List.replicate_zero, List.nil_append]

/-- C137: whether a copy is possible, and its values, depend on the shapes and values only, not on the devices: it is as in main memory. -/
theorem C137_same (cp : Bool) (dst src : Arr V) (hc : dst.device = .gpu ∨ src.device = .gpu → cp = true) :
    (safeAssign cp dst src).map (·.data) = (safeAssign false ⟨.cpu, dst.data⟩ ⟨.cpu, src.data⟩).map (·.data) := by
  rw [assign_eq cp dst src hc, assign_eq false ⟨.cpu, dst.data⟩ ⟨.cpu, src.data⟩ (fun h => by rcases h with h | h <;> cases h)]
  simp only [rawAssign]
  split
  · rfl
  · simp only [if_true]
    cases assign dst.data [] src.data <;> rfl

/-- C137: an array with another number of points along its only axis, and not one, is refused, on any devices. -/
theorem C137_refused (cp : Bool) (dst src : Arr V) (hc : dst.device = .gpu ∨ src.device = .gpu → cp = true) (n m : Nat)
    (hn : dst.data.shape = [n]) (hm : src.data.shape = [m]) (h : m ≠ n) (h1 : m ≠ 1) :
    safeAssign cp dst src = .error .valueError := by
  rw [assign_eq cp dst src hc]
  simp [rawAssign, assign, hn, hm, regions, fits, h, h1]

/-! Memory for messages. -/

/-- The allocator that was set last. -/
def lastSet : List Op → Nat → Nat
  | [], a => a
  | .set a :: l, _ => lastSet l a
  | .make _ _ :: l, a => lastSet l a

/-- No allocation fails for want of memory. -/
def Enough (l : List Op) : Prop := ∀ m, Op.make m false ∉ l

/-- C137: while memory suffices, the allocator in use is the one that was set last, whatever arrays were made. -/
theorem C137_allocator (cp debug : Bool) : ∀ (l : List Op) (w : St × List Made), Enough l → (run cp debug l w).1 = lastSet l w.1
  | [], w, _ => rfl
  | .set a :: l, w, h => C137_allocator cp debug l (a, w.2) fun m hm => h m (List.mem_cons_of_mem _ hm)
  | .make m false :: l, w, h => absurd (List.mem_cons_self ..) (h m)
  | .make m true :: l, w, h => by
    rw [run, C137_allocator cp debug l _ fun m hm => h m (List.mem_cons_of_mem _ hm), lastSet]
    congr 1
    rcases m with _ | d
    · cases cp <;> cases debug <;> simp [safeAlloc]
    · cases cp <;> cases debug <;> cases d <;> simp [safeAlloc]

/-- C137: in debug mode every array on a GPU is made by the default pool, whatever was set and whatever failed before. -/
theorem C137_pool : ∀ (l : List Op) (w : St × List Made), (∀ x ∈ w.2, x.device = .gpu → x.by_ = 0) →
    ∀ x ∈ (run true true l w).2, x.device = .gpu → x.by_ = 0
  | [], w, h => h
  | .set a :: l, w, h => C137_pool l (a, w.2) h
  | .make m e :: l, w, h => by
    rw [run]
    refine C137_pool l _ ?_
    intro x hx hg
    rcases m with _ | d
    · cases e
      · exact h x (by simpa [safeAlloc] using hx) hg
      · simp only [safeAlloc, decide_true, Bool.and_self, if_true, List.mem_append, List.mem_singleton] at hx
        rcases hx with hx | rfl
        · exact h x hx hg
        · rfl
    · cases e
      · exact h x (by simpa [safeAlloc] using hx) hg
      · cases d
        · simp only [safeAlloc, reduceCtorEq, decide_false, Bool.and_false, Bool.false_eq_true, if_false, if_true, List.mem_append,
            List.mem_singleton] at hx
          rcases hx with hx | rfl
          · exact h x hx hg
          · cases hg
        · exact h x (by simpa [safeAlloc] using hx) hg

/-- C137: what CuPy's `empty` and `zeros` make is on the GPU, what others make in main memory is returned; what others make on the GPU is
refused in debug mode. -/
theorem C137_made (debug : Bool) (s : St) :
    (safeAlloc true debug s .cupy true).2 = .ok ⟨.gpu, 0⟩ ∧
    (∃ b, (safeAlloc true debug s (.other .cpu) true).2 = .ok ⟨.cpu, b⟩) ∧
    (safeAlloc true true s (.other .gpu) true).2 = .error .runtimeError :=
  ⟨by simp [safeAlloc], ⟨s, by simp [safeAlloc]⟩, by simp [safeAlloc]⟩

/-- Not so without debug mode (`python -O`): what others make on the GPU is returned, made by the allocator in use. -/
theorem C137_optimised_violated (s : St) : (safeAlloc true false s (.other .gpu) true).2 = .ok ⟨.gpu, s⟩ := by simp [safeAlloc]

/-- Not so when memory does not suffice: the allocator that was set is lost, the default pool's stays in use. -/
theorem C137_failed_violated (debug : Bool) (a : Nat) (w : St × List Made) :
    (run true debug [.set a, .make .cupy false] w).1 = 0 ∧ lastSet [.set a, .make .cupy false] w.1 = a := by
  constructor
  · simp [run, safeAlloc]
  · rfl

/-! Examples. -/

example : Enough [.set 3, .make .cupy true, .make (.other .cpu) true] := by
  intro m hm
  simp at hm

example : run true true [.set 3, .make .cupy true, .make (.other .gpu) true, .make (.other .cpu) true] (0, []) =
    (3, [⟨.gpu, 0⟩, ⟨.cpu, 3⟩]) := by decide +kernel

example : ((safeAssign true ⟨.cpu, zeros 0 [2]⟩ ⟨.gpu, ⟨[2], fun idx => idx.getD 0 0 + 5⟩⟩).toOption.map fun r =>
    (r.device, r.data.get [0], r.data.get [1])) = some (.cpu, 5, 6) := by decide +kernel
example : ((safeAssign true ⟨.gpu, zeros 0 [2]⟩ ⟨.cpu, ⟨[1], fun _ => 5⟩⟩).toOption.map fun r =>
    (r.device, r.data.get [0], r.data.get [1])) = some (.gpu, 5, 5) := by decide +kernel

end NDSL.DeviceCopy
