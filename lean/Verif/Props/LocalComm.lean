import Verif.Spec.LocalComm
import Mathlib.Tactic.SplitIfs

/-! C32, C33, C66: the in-process communicator. -/
namespace NDSL.Local
variable {V : Type}

theorem doRecv_chan (s : World V) (r a src tag : Nat) (ch : Nat × Nat × Nat) :
    (s.chan ch).getD [] =
      (if (src, r, tag) = ch ∧ raised (doRecv s r a src tag).2 = false
        then [(doRecv s r a src tag).1.heap a] else []) ++ ((doRecv s r a src tag).1.chan ch).getD [] := by
  unfold doRecv
  split
  · simp [raised]
  · simp [raised]
  · rename_i v l hc
    by_cases h : (src, r, tag) = ch
    · subst h
      simp [raised, setHeap, hc]
    · have h' : ¬ ch = (src, r, tag) := fun e => h e.symm
      simp [raised, h, h']

/-- one call: what is buffered on a channel, plus what the call sends on it, is what the call receives from
it, plus what is buffered afterwards -/
theorem step_chan (s : World V) (o : Op V) (ch : Nat × Nat × Nat) :
    (s.chan ch).getD [] ++ sentOn ch [⟨s, o, (step s o).2, (step s o).1⟩] =
      receivedOn ch [⟨s, o, (step s o).2, (step s o).1⟩] ++ ((step s o).1.chan ch).getD [] := by
  cases o with
  | write a v => simp [sentOn, receivedOn, sendOf, recvOf, step]
  | send r a dest tag =>
    by_cases h : (r, dest, tag) = ch
    · subst h; simp [sentOn, receivedOn, sendOf, recvOf, step, put]
    · have h' : ¬ ch = (r, dest, tag) := fun e => h e.symm
      simp [sentOn, receivedOn, sendOf, recvOf, step, put, h, h']
  | isend r a dest tag =>
    by_cases h : (r, dest, tag) = ch
    · subst h; simp [sentOn, receivedOn, sendOf, recvOf, step, put]
    · have h' : ¬ ch = (r, dest, tag) := fun e => h e.symm
      simp [sentOn, receivedOn, sendOf, recvOf, step, put, h, h']
  | recv r a src tag =>
    have := doRecv_chan s r a src tag ch
    simp only [sentOn, receivedOn, sendOf, recvOf, step, List.filterMap_cons, List.filterMap_nil, List.append_nil]
    rw [this]
    congr 1
    split <;> rename_i h
    · rfl
    · rfl
  | irecv r a src tag => simp [sentOn, receivedOn, sendOf, recvOf, step]
  | wait i =>
    cases hq : s.reqs[i]? with
    | none => simp [sentOn, receivedOn, sendOf, recvOf, step, hq]
    | some q =>
      obtain ⟨r, a, src, tag⟩ := q
      have := doRecv_chan s r a src tag ch
      simp only [sentOn, receivedOn, sendOf, recvOf, step, hq, Option.map_some, List.filterMap_cons,
        List.filterMap_nil, List.append_nil]
      rw [this]
      congr 1
      split <;> rename_i h
      · rfl
      · rfl
  | bcast r v root =>
    simp only [sentOn, receivedOn, sendOf, recvOf, step, List.filterMap_cons, List.filterMap_nil, List.append_nil,
      List.nil_append]
    unfold doBcast
    split
    · rfl
    · simp only; split <;> rfl
  | scatter r rows a root =>
    simp only [sentOn, receivedOn, sendOf, recvOf, step, List.filterMap_cons, List.filterMap_nil, List.append_nil,
      List.nil_append]
    unfold doScatter
    split
    · rfl
    · simp only
      split
      · rfl
      · rfl
      · split <;> rfl
  | gather r a root =>
    simp only [sentOn, receivedOn, sendOf, recvOf, step, List.filterMap_cons, List.filterMap_nil, List.append_nil,
      List.nil_append]
    unfold doGather
    split
    · rfl
    · simp only
      split
      · split <;> rfl
      · rfl

theorem sentOn_cons (ch : Nat × Nat × Nat) (c : Rec V) (h : List (Rec V)) :
    sentOn ch (c :: h) = sentOn ch [c] ++ sentOn ch h := by
  rw [show c :: h = [c] ++ h from rfl]; unfold sentOn; rw [List.filterMap_append]

theorem receivedOn_cons (ch : Nat × Nat × Nat) (c : Rec V) (h : List (Rec V)) :
    receivedOn ch (c :: h) = receivedOn ch [c] ++ receivedOn ch h := by
  rw [show c :: h = [c] ++ h from rfl]; unfold receivedOn; rw [List.filterMap_append]

theorem hist_chan (ch : Nat × Nat × Nat) : ∀ (os : List (Op V)) (s : World V),
    (s.chan ch).getD [] ++ sentOn ch (hist s os) =
      receivedOn ch (hist s os) ++ ((run s os).chan ch).getD []
  | [], s => by simp [hist, run, sentOn, receivedOn]
  | o :: os, s => by
    simp only [hist, run]
    rw [sentOn_cons, receivedOn_cons, ← List.append_assoc, step_chan, List.append_assoc, hist_chan ch os,
      List.append_assoc]

/-- C32. In every history of calls by any ranks in any order, on every channel (sender, receiver, tag) the
completed receives returned, in order, the first of the sent arrays, as they were when sent: the k-th
completed receive has the k-th sent array. -/
theorem C32_in_order (n : Nat) (heap : Nat → V) (os : List (Op V)) (ch : Nat × Nat × Nat) :
    receivedOn ch (hist (World.init n heap) os) =
      (sentOn ch (hist (World.init n heap) os)).take
        (receivedOn ch (hist (World.init n heap) os)).length := by
  have h := hist_chan ch os (World.init n heap)
  have h0 : ((World.init n heap).chan ch).getD [] = [] := rfl
  rw [h0, List.nil_append] at h
  rw [h, List.take_left]

/-- C32. A receive raises exactly when every array sent on its channel so far has been received. -/
theorem C32_raises_iff (n : Nat) (heap : Nat → V) (os : List (Op V)) (r a src tag : Nat) :
    raised (step (run (World.init n heap) os) (.recv r a src tag)).2 = true ↔
      (receivedOn (src, r, tag) (hist (World.init n heap) os)).length =
        (sentOn (src, r, tag) (hist (World.init n heap) os)).length := by
  have h := hist_chan (src, r, tag) os (World.init n heap)
  have h0 : ((World.init n heap).chan (src, r, tag)).getD [] = [] := rfl
  rw [h0, List.nil_append] at h
  rw [h, List.length_append]
  simp only [step, doRecv]
  cases hc : (run (World.init n heap) os).chan (src, r, tag) with
  | none => simp [raised]
  | some l =>
    cases l with
    | nil => simp [raised]
    | cons v l => simp [raised]

/-! ### Gather -/

theorem step_gath_length (s : World V) (o : Op V) : (step s o).1.gath.length = s.gath.length := by
  cases o <;> simp only [step]
  case send => rfl
  case isend => rfl
  case recv => unfold doRecv; split <;> rfl
  case wait =>
    split
    · unfold doRecv; split <;> rfl
    · rfl
  case bcast => unfold doBcast; split; rfl; simp only; split <;> rfl
  case scatter =>
    unfold doScatter; split
    · rfl
    · simp only
      split
      · rfl
      · rfl
      · split <;> rfl
  case gather =>
    unfold doGather
    split
    · rfl
    · simp only
      split
      · split <;> simp
      · simp

theorem run_gath_length : ∀ (os : List (Op V)) (s : World V), (run s os).gath.length = s.gath.length
  | [], _ => rfl
  | o :: os, s => by simp only [run]; rw [run_gath_length os, step_gath_length]

/-- the slot of a rank after a call -/
theorem step_gath (s : World V) (o : Op V) (r : Nat) (hr : r < s.gath.length) :
    (step s o).1.gath.getD r none =
      match latest r [⟨s, o, (step s o).2, (step s o).1⟩] with
      | some v => some v
      | none => s.gath.getD r none := by
  cases o <;> simp only [step]
  case write => simp [latest]
  case send => simp [latest, put]
  case isend => simp [latest, put]
  case irecv => simp [latest]
  case recv => simp only [latest, List.filterMap_cons, List.filterMap_nil, List.getLast?_nil]; unfold doRecv; split <;> rfl
  case wait =>
    simp only [latest, List.filterMap_cons, List.filterMap_nil, List.getLast?_nil]
    split
    · unfold doRecv; split <;> rfl
    · rfl
  case bcast =>
    simp only [latest, List.filterMap_cons, List.filterMap_nil, List.getLast?_nil]
    unfold doBcast; split; rfl; simp only; split <;> rfl
  case scatter =>
    simp only [latest, List.filterMap_cons, List.filterMap_nil, List.getLast?_nil]
    unfold doScatter; split
    · rfl
    · simp only
      split
      · rfl
      · rfl
      · split <;> rfl
  case gather r' a root =>
    have hg : (doGather s r' a root).1.gath = s.gath.set r' (some (s.heap a)) := by
      unfold doGather
      split
      · rename_i h; rw [List.set_eq_of_length_le h]
      · simp only
        split
        · split <;> rfl
        · rfl
    rw [hg]
    by_cases h : r' = r
    · subst h; simp [latest, hr]
    · simp [latest, h, List.getD_eq_getElem?_getD]

theorem latest_cons (r : Nat) (c : Rec V) (h : List (Rec V)) :
    latest r (c :: h) = match latest r h with
      | some v => some v
      | none => latest r [c] := by
  rw [show c :: h = [c] ++ h from rfl]
  unfold latest
  rw [List.filterMap_append, List.getLast?_append]
  cases (List.filterMap (fun c : Rec V => match c.op with
    | .gather r' a _ => if r' = r then some (c.pre.heap a) else none
    | _ => none) h).getLast? <;> simp

theorem run_gath (r : Nat) : ∀ (os : List (Op V)) (s : World V), r < s.gath.length →
    (run s os).gath.getD r none =
      match latest r (hist s os) with
      | some v => some v
      | none => s.gath.getD r none
  | [], s, _ => by simp [run, hist, latest]
  | o :: os, s, hr => by
    simp only [run, hist]
    rw [run_gath r os _ (by rw [step_gath_length]; exact hr), latest_cons, step_gath s o r hr]
    cases latest r (hist (step s o).1 os) <;> rfl

theorem latest_snoc (r : Nat) (os : List (Op V)) (s : World V) (o : Op V) :
    latest r (hist s (os ++ [o])) =
      match latest r [⟨run s os, o, (step (run s os) o).2, (step (run s os) o).1⟩] with
      | some v => some v
      | none => latest r (hist s os) := by
  induction os generalizing s with
  | nil => simp only [List.nil_append, hist, run]; cases h : latest r [_] <;> simp [latest]
  | cons x os ih =>
    simp only [List.cons_append, hist, run]
    rw [latest_cons, ih, latest_cons r _ (hist _ os)]
    cases latest r [_] <;> cases latest r (hist (step s x).1 os) <;> rfl

/-- C33. In every history, a `Gather` on its root returns for every rank what that rank contributed in its
latest `Gather`, as it was at that time, and raises exactly when some rank has never called `Gather`. -/
theorem C33_gather_latest (n : Nat) (heap : Nat → V) (os : List (Op V)) (root a : Nat) (hr : root < n) :
    let h := hist (World.init n heap) (os ++ [.gather root a root])
    let res := (step (run (World.init n heap) os) (.gather root a root)).2
    (∀ l, res = .rows l → l.map some = (List.range n).map fun r => latest r h) ∧
    (raised res = true ↔ ∃ r < n, latest r h = none) ∧
    (res ≠ .done) := by
  intro h res
  have hlen : (run (World.init n heap) os).gath.length = n := by
    rw [run_gath_length]; simp [World.init]
  let g := (run (World.init n heap) os).gath.set root (some ((run (World.init n heap) os).heap a))
  have hg : g = (List.range n).map fun r => latest r h := by
    apply List.ext_getElem
    · show (List.set _ _ _).length = _
      rw [List.length_set, hlen]; simp
    · intro i h1 h2
      have hi : i < n := by simpa using h2
      rw [List.getElem_map, List.getElem_range]
      show (List.set _ _ _)[i] = latest i h
      rw [List.getElem_set]
      have hl : latest i h = _ := latest_snoc i os (World.init n heap) (.gather root a root)
      rw [hl]
      by_cases hir : root = i
      · subst hir
        simp [latest]
      · have hnone : latest i [⟨run (World.init n heap) os, .gather root a root,
            (step (run (World.init n heap) os) (.gather root a root)).2,
            (step (run (World.init n heap) os) (.gather root a root)).1⟩] = none := by
          simp [latest, hir]
        rw [if_neg hir, hnone]
        have := run_gath i os (World.init n heap) (by simp [World.init]; exact hi)
        rw [List.getD_eq_getElem?_getD, List.getElem?_eq_getElem (by rw [hlen]; exact hi), Option.getD_some] at this
        rw [this]
        have hi0 : (World.init n heap).gath.getD i none = none := by
          show (List.replicate n none).getD i none = none
          rw [List.getD_eq_getElem?_getD, List.getElem?_replicate]
          split <;> rfl
        rw [hi0]
        cases latest i (hist (World.init n heap) os) <;> rfl
  have hres : res = if g.any Option.isNone then .raised .runtimeError else .rows (g.filterMap id) := by
    show (doGather _ _ _ _).2 = _
    unfold doGather
    rw [if_neg (by rw [hlen]; omega)]
    simp only [if_true]
    show (if g.any Option.isNone then _ else _ : World V × Res V).2 = _
    split <;> rfl
  have hany : g.any Option.isNone = true ↔ ∃ r < n, latest r h = none := by
    rw [hg]
    simp
  refine ⟨?_, ?_, ?_⟩
  · intro l hl
    rw [hres] at hl
    split at hl
    · cases hl
    · rename_i hno
      cases hl
      rw [← hg]
      have : ∀ x ∈ g, ∃ v, x = some v := by
        intro x hx
        cases x with
        | none => exact absurd (List.any_eq_true.2 ⟨none, hx, rfl⟩) hno
        | some v => exact ⟨v, rfl⟩
      clear hres hany hno hg
      clear_value g
      induction g with
      | nil => rfl
      | cons x g ih =>
        obtain ⟨v, rfl⟩ := this x List.mem_cons_self
        have := ih fun y hy => this y (List.mem_cons_of_mem _ hy)
        simp only [List.filterMap_cons, id, List.map_cons]
        rw [show List.filterMap id g = List.filterMap (fun x => x) g from rfl] at this
        rw [← this]
        simp
  · rw [← hany, hres]
    split
    · simp_all [raised]
    · simp_all [raised]
  · rw [hres]; split <;> simp

theorem run_gathers_heap (root : Nat) (arr : Nat → Nat) : ∀ (rs : List Nat) (s : World V),
    (run s (rs.map fun r => .gather r (arr r) root)).heap = s.heap
  | [], _ => rfl
  | r :: rs, s => by
    simp only [List.map_cons, run]
    rw [run_gathers_heap root arr rs]
    simp only [step]
    unfold doGather
    split
    · rfl
    · simp only
      split
      · split <;> rfl
      · rfl

theorem latest_gathers (root : Nat) (arr : Nat → Nat) (r : Nat) : ∀ (rs : List Nat) (s : World V), r ∈ rs →
    latest r (hist s (rs.map fun r => .gather r (arr r) root)) = some (s.heap (arr r))
  | [], _, h => by cases h
  | r' :: rs, s, h => by
    simp only [List.map_cons, hist]
    rw [latest_cons]
    have hheap : (step s (.gather r' (arr r') root)).1.heap = s.heap := run_gathers_heap root arr [r'] s
    by_cases hm : r ∈ rs
    · rw [latest_gathers root arr r rs _ hm, hheap]
    · rcases List.mem_cons.1 h with rfl | h
      · have hnone : ∀ (rs : List Nat) (s : World V), r ∉ rs →
            latest r (hist s (rs.map fun r => .gather r (arr r) root)) = none := by
          intro rs
          induction rs with
          | nil => intro s _; rfl
          | cons x rs ih =>
            intro s hx
            simp only [List.mem_cons, not_or] at hx
            simp only [List.map_cons, hist]
            rw [latest_cons, ih _ hx.2]
            have : ¬ x = r := fun e => hx.1 e.symm
            simp [latest, this]
        rw [hnone rs _ hm]
        simp [latest]
      · exact absurd h hm

theorem hist_append (s : World V) : ∀ (a b : List (Op V)), hist s (a ++ b) = hist s a ++ hist (run s a) b := by
  intro a
  induction a generalizing s with
  | nil => intro b; rfl
  | cons o a ih => intro b; simp only [List.cons_append, hist, run, ih]

theorem run_append' (s : World V) : ∀ (a b : List (Op V)), run s (a ++ b) = run (run s a) b := by
  intro a
  induction a generalizing s with
  | nil => intro b; rfl
  | cons o a ih => intro b; simp only [List.cons_append, run, ih]

theorem latest_append (r : Nat) (a b : List (Rec V)) :
    latest r (a ++ b) = match latest r b with
      | some v => some v
      | none => latest r a := by
  unfold latest
  rw [List.filterMap_append, List.getLast?_append]
  generalize (List.filterMap _ b).getLast? = x
  cases x <;> simp

/-- C33 as stated, for rounds in which the root calls last: after any history, the root gets the values of
this round. -/
theorem C33_rounds_partial (n : Nat) (heap : Nat → V) (os : List (Op V)) (root : Nat) (hr : root < n)
    (arr : Nat → Nat) :
    let w := run (World.init n heap) os
    let before := ((List.range n).filter (· ≠ root)).map fun r => Op.gather r (arr r) root
    (step (run w before) (.gather root (arr root) root)).2 =
      .rows ((List.range n).map fun r => w.heap (arr r)) := by
  intro w before
  have key := C33_gather_latest n heap (os ++ before) root (arr root) hr
  simp only [run_append'] at key
  have hl : ∀ r, r < n → latest r (hist (World.init n heap) (os ++ before ++ [.gather root (arr root) root])) =
      some (w.heap (arr r)) := by
    intro r hrn
    rw [latest_snoc]
    by_cases h : r = root
    · subst h
      have : (run (World.init n heap) (os ++ before)).heap = w.heap := by
        rw [run_append']; exact run_gathers_heap r arr _ _
      simp [latest, this]
    · have h' : ¬ root = r := fun e => h e.symm
      have hno : latest r [⟨run (World.init n heap) (os ++ before), .gather root (arr root) root,
          (step (run (World.init n heap) (os ++ before)) (.gather root (arr root) root)).2,
          (step (run (World.init n heap) (os ++ before)) (.gather root (arr root) root)).1⟩] = none := by
        simp [latest, h']
      rw [hno, hist_append, latest_append]
      have hmem : r ∈ (List.range n).filter (· ≠ root) := by
        rw [List.mem_filter]; exact ⟨List.mem_range.2 hrn, by simpa using h⟩
      have := latest_gathers root arr r _ w hmem
      have e : latest r (hist (run (World.init n heap) os) before) = some (w.heap (arr r)) := this
      simp only [e]
  cases hres : (step (run w before) (.gather root (arr root) root)).2 with
  | done => exact absurd hres key.2.2
  | ref a => 
    simp only [step] at hres
    unfold doGather at hres
    split at hres
    · cases hres
    · simp only [if_true] at hres; split at hres <;> cases hres
  | raised e =>
    have := key.2.1.1 (by rw [show run (run (World.init n heap) os) before = run w before from rfl, hres]; rfl)
    obtain ⟨r, h1, h2⟩ := this
    rw [hl r h1] at h2; cases h2
  | rows l =>
    have := key.1 l hres
    have h2 : l.map some = ((List.range n).map fun r => w.heap (arr r)).map some := by
      rw [this, List.map_map]
      apply List.map_congr_left
      intro r hrn
      exact hl r (List.mem_range.1 hrn)
    rw [List.map_inj_right (fun a b h => by cases h; rfl)] at h2
    rw [h2]

/-! ### Broadcast and scatter -/

theorem bcastCalls_cons (r : Nat) (c : Rec V) (h : List (Rec V)) :
    bcastCalls r (c :: h) = bcastCalls r [c] + bcastCalls r h := by
  rw [show c :: h = [c] ++ h from rfl]; unfold bcastCalls; rw [List.filter_append, List.length_append]

theorem bcastArgs_cons (c : Rec V) (h : List (Rec V)) : bcastArgs (c :: h) = bcastArgs [c] ++ bcastArgs h := by
  rw [show c :: h = [c] ++ h from rfl]; unfold bcastArgs; rw [List.filterMap_append]

theorem scatterCalls_cons (r : Nat) (c : Rec V) (h : List (Rec V)) :
    scatterCalls r (c :: h) = scatterCalls r [c] + scatterCalls r h := by
  rw [show c :: h = [c] ++ h from rfl]; unfold scatterCalls; rw [List.filter_append, List.length_append]

theorem scatterArgs_cons (c : Rec V) (h : List (Rec V)) :
    scatterArgs (c :: h) = scatterArgs [c] ++ scatterArgs h := by
  rw [show c :: h = [c] ++ h from rfl]; unfold scatterArgs; rw [List.filterMap_append]

theorem step_bs (s : World V) (o : Op V) (r : Nat) :
    (step s o).1.iBcast r = s.iBcast r + bcastCalls r [⟨s, o, (step s o).2, (step s o).1⟩] ∧
    (step s o).1.bcastBuf = s.bcastBuf ++ bcastArgs [⟨s, o, (step s o).2, (step s o).1⟩] ∧
    (step s o).1.iScat r = s.iScat r + scatterCalls r [⟨s, o, (step s o).2, (step s o).1⟩] ∧
    (step s o).1.scatBuf = s.scatBuf ++ scatterArgs [⟨s, o, (step s o).2, (step s o).1⟩] := by
  cases o with
  | write a v => simp [bcastCalls, bcastArgs, scatterCalls, scatterArgs, step]
  | send r a dest tag => simp [bcastCalls, bcastArgs, scatterCalls, scatterArgs, step, put]
  | isend r a dest tag => simp [bcastCalls, bcastArgs, scatterCalls, scatterArgs, step, put]
  | irecv r a src tag => simp [bcastCalls, bcastArgs, scatterCalls, scatterArgs, step]
  | recv r a src tag =>
    simp only [bcastCalls, bcastArgs, scatterCalls, scatterArgs, step]
    unfold doRecv; split <;> simp
  | wait i =>
    simp only [bcastCalls, bcastArgs, scatterCalls, scatterArgs, step]
    split
    · unfold doRecv; split <;> simp
    · simp
  | gather r a root =>
    simp only [bcastCalls, bcastArgs, scatterCalls, scatterArgs, step]
    unfold doGather
    split
    · simp
    · simp only
      split
      · split <;> simp
      · simp
  | bcast r' v root =>
    have h1 : ∀ (w : World V × Res V), w = doBcast s r' v root →
        w.1.iBcast r = s.iBcast r + (if root = 0 ∧ r' = r then 1 else 0) ∧
        w.1.bcastBuf = s.bcastBuf ++ (if root = 0 ∧ r' = 0 then [v] else []) ∧
        w.1.iScat = s.iScat ∧ w.1.scatBuf = s.scatBuf := by
      intro w hw
      unfold doBcast at hw
      by_cases hroot : root = 0
      · rw [if_neg (by simpa using hroot)] at hw
        simp only at hw
        have : w.1.iBcast = bump s.iBcast r' ∧ w.1.bcastBuf = (if r' = 0 then s.bcastBuf ++ [v] else s.bcastBuf) ∧
            w.1.iScat = s.iScat ∧ w.1.scatBuf = s.scatBuf := by
          rw [hw]
          split <;> exact ⟨rfl, rfl, rfl, rfl⟩
        refine ⟨?_, ?_, this.2.2.1, this.2.2.2⟩
        · rw [this.1]; unfold bump
          by_cases h : r = r'
          · subst h; simp [hroot]
          · have : ¬ r' = r := fun e => h e.symm
            simp [h, this]
        · rw [this.2.1]
          split <;> simp_all
      · rw [if_pos (by simpa using hroot)] at hw
        rw [hw]; simp [hroot]
    obtain ⟨a1, a2, a3, a4⟩ := h1 _ rfl
    simp only [step]
    refine ⟨?_, ?_, ?_, ?_⟩
    · rw [a1]
      congr 1
      cases root with
      | zero => by_cases h : r' = r <;> simp [bcastCalls, h]
      | succ k => simp [bcastCalls]
    · rw [a2]
      congr 1
      cases root with
      | zero => cases r' <;> simp [bcastArgs]
      | succ k => simp [bcastArgs]
    · rw [a3]; simp [scatterCalls]
    · rw [a4]; simp [scatterArgs]
  | scatter r' rows a root =>
    have h1 : ∀ (w : World V × Res V), w = doScatter s r' rows a root →
        w.1.iScat r = s.iScat r + (if root = 0 ∧ r' = r then 1 else 0) ∧
        w.1.scatBuf = s.scatBuf ++ (if root = 0 ∧ r' = 0 then [rows.map fun l => l.map s.heap] else []) ∧
        w.1.iBcast = s.iBcast ∧ w.1.bcastBuf = s.bcastBuf := by
      intro w hw
      unfold doScatter at hw
      by_cases hroot : root = 0
      · rw [if_neg (by simpa using hroot)] at hw
        simp only at hw
        have : w.1.iScat = bump s.iScat r' ∧
            w.1.scatBuf = (if r' = 0 then s.scatBuf ++ [rows.map fun l => l.map s.heap] else s.scatBuf) ∧
            w.1.iBcast = s.iBcast ∧ w.1.bcastBuf = s.bcastBuf := by
          rw [hw]
          split
          · exact ⟨rfl, rfl, rfl, rfl⟩
          · exact ⟨rfl, rfl, rfl, rfl⟩
          · split <;> exact ⟨rfl, rfl, rfl, rfl⟩
        refine ⟨?_, ?_, this.2.2.1, this.2.2.2⟩
        · rw [this.1]; unfold bump
          by_cases h : r = r'
          · subst h; simp [hroot]
          · have : ¬ r' = r := fun e => h e.symm
            simp [h, this]
        · rw [this.2.1]
          split <;> simp_all
      · rw [if_pos (by simpa using hroot)] at hw
        rw [hw]; simp [hroot]
    obtain ⟨a1, a2, a3, a4⟩ := h1 _ rfl
    simp only [step]
    refine ⟨?_, ?_, ?_, ?_⟩
    · rw [a3]; simp [bcastCalls]
    · rw [a4]; simp [bcastArgs]
    · rw [a1]
      congr 1
      cases root with
      | zero => by_cases h : r' = r <;> simp [scatterCalls, h]
      | succ k => simp [scatterCalls]
    · rw [a2]
      congr 1
      cases root with
      | zero => cases r' <;> simp [scatterArgs]
      | succ k => simp [scatterArgs]

theorem run_bs (r : Nat) : ∀ (os : List (Op V)) (s : World V),
    (run s os).iBcast r = s.iBcast r + bcastCalls r (hist s os) ∧
    (run s os).bcastBuf = s.bcastBuf ++ bcastArgs (hist s os) ∧
    (run s os).iScat r = s.iScat r + scatterCalls r (hist s os) ∧
    (run s os).scatBuf = s.scatBuf ++ scatterArgs (hist s os)
  | [], s => by simp [run, hist, bcastCalls, bcastArgs, scatterCalls, scatterArgs]
  | o :: os, s => by
    simp only [run, hist]
    obtain ⟨a1, a2, a3, a4⟩ := run_bs r os (step s o).1
    obtain ⟨b1, b2, b3, b4⟩ := step_bs s o r
    rw [bcastCalls_cons, bcastArgs_cons, scatterCalls_cons, scatterArgs_cons, a1, a2, a3, a4, b1, b2, b3, b4]
    refine ⟨by omega, by rw [List.append_assoc], by omega, by rw [List.append_assoc]⟩

/-- C66, broadcast. In every history, a rank's k-th `bcast` returns the object rank 0 passed in its k-th
`bcast`, and raises when rank 0 has not made that call yet. -/
theorem C66_bcast (n : Nat) (heap : Nat → V) (os : List (Op V)) (r : Nat) (value : Option Nat) :
    let h := hist (World.init n heap) os
    let args := if r = 0 then bcastArgs h ++ [value] else bcastArgs h
    (step (run (World.init n heap) os) (.bcast r value 0)).2 =
      match args[bcastCalls r h]? with
      | some v => .ref v
      | none => .raised .indexError := by
  intro h args
  obtain ⟨a1, a2, -, -⟩ := run_bs r os (World.init n heap)
  have e1 : (run (World.init n heap) os).iBcast r = bcastCalls r h := by rw [a1]; simp [World.init, h]
  have e2 : (run (World.init n heap) os).bcastBuf = bcastArgs h := by rw [a2]; simp [World.init, h]
  simp only [step, doBcast, e1, e2]
  rw [if_neg (by simp)]
  show (match args[bcastCalls r h]? with
    | some v => _
    | none => _ : World V × Res V).2 = _
  cases args[bcastCalls r h]? <;> rfl

/-- C66, scatter. In every history, a rank's k-th `Scatter` fills its array with its row of what rank 0 passed
in its k-th `Scatter`, as it was at that time, and raises when rank 0 has not made that call yet. -/
theorem C66_scatter (n : Nat) (heap : Nat → V) (os : List (Op V)) (r : Nat) (rows : Option (List Nat)) (a : Nat) :
    let h := hist (World.init n heap) os
    let w := run (World.init n heap) os
    let args := if r = 0 then scatterArgs h ++ [rows.map fun l => l.map w.heap] else scatterArgs h
    let out := step w (.scatter r rows a 0)
    match args[scatterCalls r h]? with
    | some (some l) =>
      match l[r]? with
      | some v => out.2 = .done ∧ out.1.heap a = v ∧ ∀ b, b ≠ a → out.1.heap b = w.heap b
      | none => out.2 = .raised .indexError
    | some none => out.2 = .raised .typeError
    | none => out.2 = .raised .indexError := by
  intro h w args out
  obtain ⟨-, -, a1, a2⟩ := run_bs r os (World.init n heap)
  have e1 : w.iScat r = scatterCalls r h := by show (run _ _).iScat r = _; rw [a1]; simp [World.init, h]
  have e2 : w.scatBuf = scatterArgs h := by show (run _ _).scatBuf = _; rw [a2]; simp [World.init, h]
  have hout : out = doScatter w r rows a 0 := rfl
  rw [hout]
  simp only [doScatter, e1, e2]
  rw [if_neg (by simp)]
  have ha : (if r = 0 then scatterArgs h ++ [Option.map (fun l => List.map w.heap l) rows] else scatterArgs h) = args :=
    rfl
  rw [ha]
  cases hx : args[scatterCalls r h]? with
  | none => simp
  | some x =>
    cases x with
    | none => simp
    | some l =>
      cases hl : l[r]? with
      | none => simp [hl]
      | some v =>
        simp only [hl]
        refine ⟨trivial, by simp [setHeap], ?_⟩
        intro b hb
        simp [setHeap, hb]

/-! ### Examples and violations -/

/-- two messages on one channel, one on another, the sent array overwritten after sending; the second receive
is posted before the send -/
example : (fun h : List (Rec Nat) => (receivedOn (0, 1, 7) h, sentOn (0, 1, 7) h, receivedOn (0, 1, 8) h))
    (hist (World.init 2 fun a => a) [.irecv 1 20 0 7, .send 0 3 1 7, .write 3 99, .isend 0 3 1 7, .send 0 4 1 8,
      .wait 0, .recv 1 21 0 7]) = ([3, 99], [3, 99], []) := by
  decide +kernel

example : (step (run (World.init 3 fun a => a) ([.gather 1 5 0, .gather 2 6 0, .write 5 1] : List (Op Nat)))
    (.gather 0 4 0)).2 = .rows [4, 5, 6] := by decide +kernel

/-- C33 is false of the code as stated: the gather list is never reset, so a second gather on the root returns
the first round's contribution of a rank that has not called yet, instead of raising. -/
theorem C33_stale_violated :
    (step (run (World.init 2 fun a => a)
      ([.gather 1 5 0, .gather 0 4 0, .write 5 50, .write 4 40] : List (Op Nat))) (.gather 0 4 0)).2 =
      .rows [40, 5] := by decide +kernel

/-- Broadcast does not copy: what rank 1 gets shows a later change made by rank 0 to the object. -/
theorem C66_bcast_alias_violated :
    (let w := run (World.init 2 fun a => a) ([.bcast 0 (some 5) 0, .write 5 50] : List (Op Nat))
     match (step w (.bcast 1 none 0)).2 with
     | .ref (some a) => some (w.heap a)
     | _ => none) = some 50 := by decide +kernel

example : (fun w : World Nat => (w.heap 7, w.heap 8)) (run (World.init 2 fun a => a)
    [.scatter 0 (some [5, 6]) 7 0, .write 6 60, .scatter 1 none 8 0]) = (5, 6) := by decide +kernel

end NDSL.Local
