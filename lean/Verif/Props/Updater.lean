import Verif.Spec.Updater
import Mathlib.Tactic.Tauto

/-
Property theorem C25: the start/wait protocol of a halo updater.
-/
namespace NDSL

theorem postAll_peer (tag : Int) : ∀ (ps : List Int) (n : Nat), (postAll tag ps n).map Req.peer = ps
  | [], _ => rfl
  | p :: ps, n => by simp [postAll, postAll_peer tag ps]

theorem postAll_id (tag : Int) : ∀ (ps : List Int) (n : Nat),
    (postAll tag ps n).map Req.id = (List.range ps.length).map (n + ·)
  | [], _ => rfl
  | p :: ps, n => by
    rw [postAll, List.map_cons, postAll_id tag ps, List.length_cons, List.range_succ_eq_map]
    simp only [List.map_cons, List.map_map]
    congr 1
    apply List.map_congr_left
    intro a _
    simp only [Function.comp]
    omega

theorem postAll_tag (tag : Int) : ∀ (ps : List Int) (n : Nat), ∀ r ∈ postAll tag ps n, r.tag = tag
  | p :: ps, n, r, h => by
    rcases List.mem_cons.1 h with rfl | h
    · rfl
    · exact postAll_tag tag ps _ r h

/-- the invariant: what is pending is what was posted -/
structure UpdOk (u : Upd) : Prop where
  r : u.inflight = true → u.recvs.map Req.peer = u.peers
  s : u.inflight = true → u.sends.map Req.peer = u.peers

theorem call_peers (u : Upd) (c : UpdCall) : (u.call c).1.peers = u.peers := by
  cases c <;> simp only [Upd.call] <;> repeat' split
  all_goals rfl

/-- alternation from a state in which an update is in flight or not -/
theorem run_alternates : ∀ (cs : List UpdCall) (u : Upd), UpdOk u →
    (u.inflight = false → Alternate u.peers ((u.run cs).filter UpdOut.accepted)) ∧
    (u.inflight = true → Alternate u.peers
      (.started u.recvs u.sends :: (u.run cs).filter UpdOut.accepted))
  | [], u, h => ⟨fun _ => trivial, fun hi => ⟨h.r hi, h.s hi⟩⟩
  | c :: cs, u, h => by
    have ih := fun h' => run_alternates cs (u.call c).1 h'
    rw [call_peers] at ih
    unfold Upd.run
    cases c with
    | start ok =>
      unfold Upd.call at ih ⊢
      by_cases hi : u.inflight = true
      · simp only [hi, if_true] at ih ⊢
        refine ⟨fun e => by simp at e, fun _ => ?_⟩
        exact (ih h).2 trivial
      · have hi' : u.inflight = false := by simpa using hi
        simp only [hi', Bool.false_eq_true, if_false] at ih ⊢
        by_cases hb : (!u.buffers && !u.peers.isEmpty) = true
        · simp only [hb, if_true] at ih ⊢
          refine ⟨fun _ => ?_, fun e => by simp at e⟩
          exact (ih ⟨fun e => by simp at e, fun e => by simp at e⟩).1 trivial
        · have hb' : (!u.buffers && !u.peers.isEmpty) = false := by simpa using hb
          simp only [hb', Bool.false_eq_true, if_false] at ih ⊢
          cases ok
          · simp only [Bool.not_false, if_true] at ih ⊢
            refine ⟨fun _ => ?_, fun e => by simp at e⟩
            exact (ih ⟨fun e => by simp at e, fun e => by simp at e⟩).1 trivial
          · simp only [Bool.not_true, Bool.false_eq_true, if_false] at ih ⊢
            refine ⟨fun _ => ?_, fun e => by simp at e⟩
            exact (ih ⟨fun _ => postAll_peer _ _ _, fun _ => postAll_peer _ _ _⟩).2 trivial
    | wait =>
      unfold Upd.call at ih ⊢
      by_cases hi : u.inflight = true
      · simp only [hi, Bool.not_true, Bool.false_eq_true, if_false] at ih ⊢
        refine ⟨fun e => by simp at e, fun _ => ?_⟩
        have := (ih ⟨fun e => by simp at e, fun e => by simp at e⟩).1 trivial
        exact ⟨h.r hi, h.s hi, rfl, rfl, rfl, this⟩
      · have hi' : u.inflight = false := by simpa using hi
        simp only [hi', Bool.not_false, if_true] at ih ⊢
        refine ⟨fun _ => ?_, fun e => by simp at e⟩
        exact (ih h).1 trivial

/-- C25: for every history of start and wait calls on an updater, including starts that raise while
packing, the accepted calls alternate start, wait, start, wait, ..., and each accepted wait completes
exactly the sends and receives posted by the accepted start before it, one per peer, and then unpacks from
every peer. -/
theorem C25_alternate (tag : Int) (peers : List Int) (fin : Bool) (n : Nat) (calls : List UpdCall) :
    Alternate peers (((Upd.new tag peers fin n).run calls).filter UpdOut.accepted) :=
  (run_alternates calls (Upd.new tag peers fin n) ⟨fun e => by simp [Upd.new] at e,
    fun e => by simp [Upd.new] at e⟩).1 rfl

/-- state of an updater after a history -/
def Upd.after (u : Upd) : List UpdCall → Upd
  | [] => u
  | c :: cs => ((u.call c).1).after cs

theorem run_append (cs ds : List UpdCall) : ∀ u : Upd, u.run (cs ++ ds) = u.run cs ++ (u.after cs).run ds := by
  induction cs with
  | nil => intro u; rfl
  | cons c cs ih => intro u; simp only [List.cons_append, Upd.run, Upd.after, ih]

theorem inFlight_snoc (prev : List UpdOut) (o : UpdOut) :
    inFlight (prev ++ [o]) = match o with
      | .started .. => true
      | .waited .. => false
      | _ => inFlight prev := by
  unfold inFlight
  rw [List.filter_append]
  cases o <;> simp [UpdOut.accepted]

theorem someWait_snoc (prev : List UpdOut) (o : UpdOut) :
    someWait (prev ++ [o]) = match o with
      | .waited .. => true
      | _ => someWait prev := by
  unfold someWait
  rw [List.any_append]
  cases o <;> simp

/-- the observable condition is the state of the updater -/
theorem after_state : ∀ (cs : List UpdCall) (u : Upd) (prev : List UpdOut),
    u.inflight = inFlight prev → u.buffers = !(u.finalizeOnWait && someWait prev) →
    (u.after cs).inflight = inFlight (prev ++ u.run cs) ∧
    (u.after cs).buffers = !(u.finalizeOnWait && someWait (prev ++ u.run cs)) ∧
    (u.after cs).peers = u.peers
  | [], u, prev, h1, h2 => by
    simp only [Upd.after, Upd.run, List.append_nil]; exact ⟨h1, h2, trivial⟩
  | c :: cs, u, prev, h1, h2 => by
    have key : (u.call c).1.inflight = inFlight (prev ++ [(u.call c).2]) ∧
        (u.call c).1.buffers = !(u.finalizeOnWait && someWait (prev ++ [(u.call c).2])) ∧
        (u.call c).1.finalizeOnWait = u.finalizeOnWait := by
      rw [inFlight_snoc, someWait_snoc]
      cases c with
      | start ok =>
        unfold Upd.call
        by_cases hi : u.inflight = true
        · simp only [hi, if_true]; rw [hi] at h1; exact ⟨h1, h2, trivial⟩
        · have hi' : u.inflight = false := by simpa using hi
          simp only [hi', Bool.false_eq_true, if_false]
          rw [hi'] at h1
          by_cases hb : (!u.buffers && !u.peers.isEmpty) = true
          · simp only [hb, if_true]; exact ⟨h1, h2, trivial⟩
          · have hb' : (!u.buffers && !u.peers.isEmpty) = false := by simpa using hb
            simp only [hb', Bool.false_eq_true, if_false]
            cases ok
            · simp only [Bool.not_false, if_true]; exact ⟨h1, h2, trivial⟩
            · simp only [Bool.not_true, Bool.false_eq_true, if_false]; exact ⟨trivial, h2, trivial⟩
      | wait =>
        unfold Upd.call
        by_cases hi : u.inflight = true
        · simp only [hi, Bool.not_true, Bool.false_eq_true, if_false]
          refine ⟨trivial, ?_, trivial⟩
          rw [h2]
          cases u.finalizeOnWait <;> simp
        · have hi' : u.inflight = false := by simpa using hi
          simp only [hi', Bool.not_false, if_true]
          rw [hi'] at h1
          exact ⟨h1, h2, trivial⟩
    obtain ⟨k1, k2, k3⟩ := key
    have ih := after_state cs (u.call c).1 (prev ++ [(u.call c).2]) k1 (by rw [k3]; exact k2)
    unfold Upd.after Upd.run
    rw [k3, call_peers, List.append_assoc] at ih
    exact ih

/-- C25, refusals: after any history, a start is refused exactly when an update is in flight, or when the
updater gives up its buffers on wait and has been waited on (and it has a peer); a wait is refused exactly
when no update is in flight; and deleting the updater raises exactly when an update is in flight. -/
theorem C25_refusals (tag : Int) (peers : List Int) (fin : Bool) (n : Nat) (calls : List UpdCall)
    (ok : Bool) :
    let prev := (Upd.new tag peers fin n).run calls
    let now := (Upd.new tag peers fin n).after calls
    ((now.call (.start ok)).2 = .refused ↔
      inFlight prev = true ∨ (fin = true ∧ peers ≠ [] ∧ someWait prev = true)) ∧
    ((now.call .wait).2 = .refused ↔ inFlight prev = false) ∧
    (now.delete = false ↔ inFlight prev = true) := by
  obtain ⟨h1, h2, h3⟩ := after_state calls (Upd.new tag peers fin n) [] rfl (by simp [Upd.new, someWait])
  rw [List.nil_append] at h1 h2
  have hp : (Upd.new tag peers fin n).peers = peers := rfl
  have hf : (Upd.new tag peers fin n).finalizeOnWait = fin := rfl
  rw [hp] at h3
  rw [hf] at h2
  simp only
  generalize (Upd.new tag peers fin n).after calls = now at *
  generalize (Upd.new tag peers fin n).run calls = prev at *
  refine ⟨?_, ?_, ?_⟩
  · unfold Upd.call
    rw [h1, h2, h3]
    cases inFlight prev <;> cases fin <;> cases someWait prev <;> cases peers <;> cases ok <;> simp
  · unfold Upd.call
    rw [h1]
    cases inFlight prev <;> simp
  · unfold Upd.delete
    rw [h1]
    cases inFlight prev <;> simp

/-- identifiers known so far are below the counter -/
theorem run_ids : ∀ (cs : List UpdCall) (u : Upd) (k : Nat), k < u.nextId →
    (u.inflight = true → k ∉ u.sends.map Req.id ∧ k ∉ u.recvs.map Req.id) →
    ∀ o ∈ u.run cs, k ∉ o.completed
  | [], _, _, _, _, o, ho => by cases ho
  | c :: cs, u, k, hk, hn, o, ho => by
    have mem : ∀ ps n, k < n → k ∉ (postAll u.tag ps n).map Req.id := by
      intro ps n hlt hm
      rw [postAll_id] at hm
      obtain ⟨j, _, hj⟩ := List.mem_map.1 hm
      omega
    unfold Upd.run at ho
    rcases List.mem_cons.1 ho with rfl | ho
    · cases c with
      | start ok =>
        simp only [Upd.call]
        repeat' split
        all_goals simp [UpdOut.completed]
      | wait =>
        simp only [Upd.call]
        split
        · simp [UpdOut.completed]
        · rename_i hi
          have := hn (by simpa using hi)
          simp only [UpdOut.completed, List.mem_append]
          tauto
    · refine run_ids cs (u.call c).1 k ?_ ?_ o ho
      · cases c with
        | start ok =>
          simp only [Upd.call]
          repeat' split
          all_goals simp only
          all_goals omega
        | wait =>
          simp only [Upd.call]
          split <;> exact hk
      · cases c with
        | start ok =>
          simp only [Upd.call]
          by_cases hi : u.inflight = true
          · simp only [hi, if_true]; exact fun _ => hn hi
          · have hi' : u.inflight = false := by simpa using hi
            simp only [hi', Bool.false_eq_true, if_false]
            split
            · intro e; simp at e
            · split
              · intro e; simp at e
              · intro _; exact ⟨mem _ _ (by omega), mem _ _ (by omega)⟩
        | wait =>
          simp only [Upd.call]
          split
          · exact hn
          · intro e; simp at e

/-- C25, an observation beyond the property: the receives posted by a start that raises while packing are
completed by no later call. -/
theorem C25_failed_start_orphans (tag : Int) (peers : List Int) (fin : Bool) (n : Nat)
    (before after : List UpdCall) (posted : List Req)
    (h : (((Upd.new tag peers fin n).after before).call (.start false)).2 = .failed posted) :
    posted.map Req.peer = peers ∧
    ∀ o ∈ ((((Upd.new tag peers fin n).after before).call (.start false)).1).run after,
      ∀ r ∈ posted, r.id ∉ o.completed := by
  have hp : ((Upd.new tag peers fin n).after before).peers = peers :=
    (after_state before _ [] rfl (by simp [Upd.new, someWait])).2.2
  generalize (Upd.new tag peers fin n).after before = u at *
  unfold Upd.call at h ⊢
  by_cases hi : u.inflight = true
  · simp [hi] at h
  · have hi' : u.inflight = false := by simpa using hi
    simp only [hi', Bool.false_eq_true, if_false] at h ⊢
    by_cases hb : (!u.buffers && !u.peers.isEmpty) = true
    · simp [hb] at h
    · have hb' : (!u.buffers && !u.peers.isEmpty) = false := by simpa using hb
      simp only [hb', Bool.false_eq_true, if_false, Bool.not_false, if_true] at h ⊢
      injection h with h
      subst h
      refine ⟨by rw [postAll_peer, hp], ?_⟩
      intro o ho r hr
      refine run_ids after _ r.id ?_ (fun e => by simp at e) o ho
      have := List.mem_map_of_mem (f := Req.id) hr
      rw [postAll_id] at this
      obtain ⟨j, hj, e⟩ := List.mem_map.1 this
      have := List.mem_range.1 hj
      simp only
      omega

/-- a history with refusals, a failed start and two completed updates -/
example : ((Upd.new 7 [3, 5] false 0).run
    [.wait, .start true, .start true, .wait, .wait, .start false, .start true, .wait]).map UpdOut.accepted =
    [false, true, false, true, false, false, true, true] := by decide

example : (Upd.new 7 [3, 5] false 0).run [.start true, .wait] =
    [.started [⟨0, 3, 7⟩, ⟨1, 5, 7⟩] [⟨2, 3, 7⟩, ⟨3, 5, 7⟩],
     .waited [⟨2, 3, 7⟩, ⟨3, 5, 7⟩] [⟨0, 3, 7⟩, ⟨1, 5, 7⟩] [3, 5]] := by decide

end NDSL
