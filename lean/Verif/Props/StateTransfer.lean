import Verif.Model.StateTransfer
import Mathlib.Data.List.Nodup

/-! C30: scattering and gathering states. -/
namespace NDSL
variable {Q T : Type}

theorem dictGet_set {V : Type} (d : List (String × V)) (k k' : String) (v : V) :
    dictGet (dictSet d k v) k' = if k' = k then some v else dictGet d k' := by
  induction d with
  | nil =>
    unfold dictSet dictGet
    by_cases h : k' = k
    · simp [h]
    · have : ¬ k = k' := fun e => h e.symm
      simp [h, this]
  | cons e d ih =>
    unfold dictSet
    by_cases he : e.1 = k
    · rw [if_pos he]
      unfold dictGet at ih ⊢
      by_cases h : k' = k
      · simp [h]
      · have h1 : ¬ k = k' := fun x => h x.symm
        have h2 : ¬ e.1 = k' := fun x => h (by rw [← x, he])
        simp [h, h1, h2]
    · rw [if_neg he]
      unfold dictGet at ih ⊢
      by_cases h2 : e.1 = k'
      · have h3 : ¬ k' = k := fun x => he (by rw [h2, x])
        simp [h2, h3]
      · have h4 : (e.1 == k') = false := by simpa using h2
        simp only [List.find?_cons, h4]
        exact ih

theorem dictGet_mem {V : Type} {d : List (String × V)} (hn : (d.map (·.1)).Nodup) {k : String} {v : V}
    (h : (k, v) ∈ d) : dictGet d k = some v := by
  induction d with
  | nil => cases h
  | cons e d ih =>
    unfold dictGet at ih ⊢
    simp only [List.map_cons, List.nodup_cons] at hn
    rcases List.mem_cons.1 h with rfl | h
    · simp
    · have : ¬ e.1 = k := fun x => hn.1 (by rw [x]; exact List.mem_map.2 ⟨_, h, rfl⟩)
      have h4 : (e.1 == k) = false := by simpa using this
      simp only [List.find?_cons, h4]
      exact ih hn.2 h

theorem rootArrays_eq {send : St Q T} (hn : (send.q.map (·.1)).Nodup) : rootArrays send = send.q.map (·.2) := by
  unfold rootArrays rootNames
  have : ∀ l : List (String × Q), (∀ e ∈ l, e ∈ send.q) →
      (l.map (·.1)).filterMap (fun n => dictGet send.q n) = l.map (·.2) := by
    intro l
    induction l with
    | nil => intro _; rfl
    | cons e l ih =>
      intro h
      have he : dictGet send.q e.1 = some e.2 := dictGet_mem hn (h e List.mem_cons_self)
      simp only [List.map_cons, List.filterMap_cons, he]
      rw [ih fun x hx => h x (List.mem_cons_of_mem _ hx)]
  exact this send.q fun e he => he

theorem scatterLoop_spec (sc : Q → Option Q → Except Err Q) : ∀ (l : List (String × Q))
    (recv : List (String × Q)) (tr : List Coll) (out : List (String × Q) × List Coll),
    (l.map (·.1)).Nodup → scatterLoop sc (l.map (·.1)) (l.map (·.2)) (recv, tr) = .ok out →
    (∀ e ∈ l, ∃ x, sc e.2 (dictGet recv e.1) = .ok x ∧ dictGet out.1 e.1 = some x) ∧
    (∀ k, k ∉ l.map (·.1) → dictGet out.1 k = dictGet recv k)
  | [], recv, tr, out, _, h => by cases h; exact ⟨fun e he => (by cases he), fun _ _ => rfl⟩
  | e :: l, recv, tr, out, hn, h => by
    simp only [List.map_cons, List.nodup_cons] at hn
    simp only [List.map_cons, scatterLoop] at h
    cases hx : sc e.2 (dictGet recv e.1) with
    | error er => rw [hx] at h; cases h
    | ok x =>
      rw [hx] at h
      have ih := scatterLoop_spec sc l _ _ out hn.2 h
      refine ⟨?_, ?_⟩
      · intro e' he'
        rcases List.mem_cons.1 he' with rfl | he'
        · refine ⟨x, hx, ?_⟩
          rw [ih.2 _ hn.1, dictGet_set, if_pos rfl]
        · obtain ⟨y, h1, h2⟩ := ih.1 e' he'
          have hne : ¬ e'.1 = e.1 := fun z => hn.1 (by rw [← z]; exact List.mem_map.2 ⟨_, he', rfl⟩)
          rw [dictGet_set, if_neg hne] at h1
          exact ⟨y, h1, h2⟩
      · intro k hk
        simp only [List.map_cons, List.mem_cons, not_or] at hk
        rw [ih.2 k hk.2, dictGet_set, if_neg hk.1]

theorem scatterLoop_trace (sc : Q → Option Q → Except Err Q) : ∀ (names : List String) (sent : List Q)
    (recv : List (String × Q)) (tr : List Coll) (out : List (String × Q) × List Coll),
    names.length = sent.length → scatterLoop sc names sent (recv, tr) = .ok out →
    out.2 = tr ++ names.flatMap fun _ => [Coll.bcast, .scatter]
  | [], [], recv, tr, out, _, h => by cases h; simp
  | n :: names, q :: sent, recv, tr, out, hl, h => by
    simp only [scatterLoop] at h
    cases hx : sc q (dictGet recv n) with
    | error er => rw [hx] at h; cases h
    | ok x =>
      rw [hx] at h
      rw [scatterLoop_trace sc names sent _ _ out (by simpa using hl) h]
      simp [scatterCalls, List.append_assoc]
  | [], _ :: _, _, _, _, hl, _ => by simp at hl
  | _ :: _, [], _, _, _, hl, _ => by simp at hl

/-- C30, scatter. For every state, number of ranks and previous contents of the receiving states: when a
rank's `scatter_state` returns, the rank holds under every name of the root's state what scattering that
quantity gives (into the rank's own quantity of that name, if it had one), its other entries are unchanged,
and its time is the root's (none if the root has none). -/
theorem C30_scatter_entries (sc : Nat → Q → Option Q → Except Err Q) (send : St Q T)
    (hn : (send.q.map (·.1)).Nodup) (recv : Option (St Q T)) (r : Nat) (out : St Q T) (tr : List Coll)
    (h : scatterState sc send recv r = .ok (out, tr)) :
    (∀ name q, (name, q) ∈ send.q → ∃ x, sc r q (dictGet (recv.getD ⟨[], none⟩).q name) = .ok x ∧
      dictGet out.q name = some x) ∧
    (∀ name, name ∉ send.q.map (·.1) → dictGet out.q name = dictGet (recv.getD ⟨[], none⟩).q name) ∧
    out.time = send.time := by
  have key : ∀ (sc' : Q → Option Q → Except Err Q),
      (do let x ← scatterLoop sc' (rootNames send) (rootArrays send) ((recvOf recv).q, [Coll.bcast])
          return ((⟨x.1, timeAfter send.time⟩ : St Q T), x.2 ++ [Coll.bcast])) = .ok (out, tr) →
      (∀ name q, (name, q) ∈ send.q → ∃ x, sc' q (dictGet (recv.getD ⟨[], none⟩).q name) = .ok x ∧
        dictGet out.q name = some x) ∧
      (∀ name, name ∉ send.q.map (·.1) → dictGet out.q name = dictGet (recv.getD ⟨[], none⟩).q name) ∧
      out.time = send.time := by
    intro sc' h
    cases hx : scatterLoop sc' (rootNames send) (rootArrays send) ((recvOf recv).q, [Coll.bcast]) with
    | error e => rw [hx] at h; cases h
    | ok x =>
      rw [hx] at h
      cases h
      rw [rootArrays_eq hn] at hx
      have := scatterLoop_spec sc' send.q _ _ x hn hx
      exact ⟨fun name q hq => this.1 (name, q) hq, this.2, rfl⟩
  unfold scatterState at h
  split at h
  · rename_i hr; subst hr; exact key _ h
  · exact key _ h

/-- C30, scatter. All ranks make the same collective calls in the same order: the names, then metadata and
data of each entry, then the time. -/
theorem C30_scatter_calls (sc : Nat → Q → Option Q → Except Err Q) (send : St Q T)
    (hn : (send.q.map (·.1)).Nodup) (recv : Option (St Q T)) (r : Nat) (out : St Q T) (tr : List Coll)
    (h : scatterState sc send recv r = .ok (out, tr)) :
    tr = .bcast :: ((send.q.flatMap fun _ => [Coll.bcast, .scatter]) ++ [.bcast]) := by
  have key : ∀ (sc' : Q → Option Q → Except Err Q),
      (do let x ← scatterLoop sc' (rootNames send) (rootArrays send) ((recvOf recv).q, [Coll.bcast])
          return ((⟨x.1, timeAfter send.time⟩ : St Q T), x.2 ++ [Coll.bcast])) = .ok (out, tr) →
      tr = .bcast :: ((send.q.flatMap fun _ => [Coll.bcast, .scatter]) ++ [.bcast]) := by
    intro sc' h
    cases hx : scatterLoop sc' (rootNames send) (rootArrays send) ((recvOf recv).q, [Coll.bcast]) with
    | error e => rw [hx] at h; cases h
    | ok x =>
      rw [hx] at h
      cases h
      rw [scatterLoop_trace sc' _ _ _ _ _ (by rw [rootArrays_eq hn]; simp [rootNames]) hx]
      simp [rootNames, List.flatMap_map]
  unfold scatterState at h
  split at h
  · exact key _ h
  · exact key _ h

theorem gatherLoop_spec (conv : Q → Q) (gq : List Q → Option Q → Except Err Q) (states : List (St Q T)) :
    ∀ (names : List String) (k : Nat) (recv out : List (String × Q)), names.Nodup →
    gatherLoop conv gq states names k recv = .ok out →
    (∀ (j : Nat) (name : String), names[j]? = some name →
      ∃ x, gq (states.filterMap fun s => (s.q[k + j]?).map fun e => conv e.2) (dictGet recv name) = .ok x ∧
        dictGet out name = some x) ∧
    (∀ name, name ∉ names → dictGet out name = dictGet recv name)
  | [], k, recv, out, _, h => by cases h; exact ⟨fun j n hj => (by simp at hj), fun _ _ => rfl⟩
  | n :: names, k, recv, out, hn, h => by
    simp only [List.nodup_cons] at hn
    simp only [gatherLoop] at h
    cases hx : gq (states.filterMap fun s => (s.q[k]?).map fun e => conv e.2) (dictGet recv n) with
    | error er => rw [hx] at h; cases h
    | ok x =>
      rw [hx] at h
      have ih := gatherLoop_spec conv gq states names (k + 1) _ out hn.2 h
      refine ⟨?_, ?_⟩
      · intro j name hj
        cases j with
        | zero =>
          simp only [List.getElem?_cons_zero, Option.some.injEq] at hj
          subst hj
          refine ⟨x, hx, ?_⟩
          rw [ih.2 _ hn.1, dictGet_set, if_pos rfl]
        | succ j =>
          simp only [List.getElem?_cons_succ] at hj
          obtain ⟨y, h1, h2⟩ := ih.1 j name hj
          have hne : ¬ name = n := fun z => hn.1 (by rw [← z]; exact List.mem_of_getElem? hj)
          rw [dictGet_set, if_neg hne] at h1
          refine ⟨y, ?_, h2⟩
          rw [show k + (j + 1) = k + 1 + j by omega]; exact h1
      · intro m hm
        simp only [List.mem_cons, not_or] at hm
        rw [ih.2 m hm.2, dictGet_set, if_neg hm.1]

theorem column_eq (conv : Q → Q) {names : List String} (hn : names.Nodup) {k : Nat} {name : String}
    (hk : names[k]? = some name) : ∀ (states : List (St Q T)),
    (∀ s ∈ states, s.q.map (·.1) = names) →
    (states.filterMap fun s => (s.q[k]?).map fun e => conv e.2) =
      states.filterMap fun s => (dictGet s.q name).map conv
  | [], _ => rfl
  | s :: states, h => by
    have hs := h s List.mem_cons_self
    have ih := column_eq conv hn hk states fun x hx => h x (List.mem_cons_of_mem _ hx)
    have hget : ∃ e, s.q[k]? = some e ∧ e.1 = name := by
      rw [← hs, List.getElem?_map] at hk
      exact Option.map_eq_some_iff.1 hk
    obtain ⟨e, h1, h2⟩ := hget
    have hd : dictGet s.q name = some e.2 := by
      apply dictGet_mem
      · rw [hs]; exact hn
      · rw [← h2]; exact List.mem_of_getElem? h1
    simp only [List.filterMap_cons, h1, hd, Option.map_some, ih]

/-- C30, gather. When all ranks' states have the same names in the same order, `gather_state` leaves on the
root, under every name, the gather of what the ranks hold under that name, leaves the other entries of the
receiving state unchanged, and carries the root's time when it has one. -/
theorem C30_gather_entries (conv : Q → Q) (gq : List Q → Option Q → Except Err Q) (root : St Q T)
    (others : List (St Q T)) (hn : (root.q.map (·.1)).Nodup)
    (hsame : ∀ s ∈ others, s.q.map (·.1) = root.q.map (·.1)) (recv : Option (St Q T)) (out : St Q T)
    (h : gatherState conv gq (root :: others) recv = .ok out) :
    (∀ name ∈ root.q.map (·.1),
      ∃ x, gq ((root :: others).filterMap fun s => (dictGet s.q name).map conv)
          (dictGet (recv.getD ⟨[], none⟩).q name) = .ok x ∧ dictGet out.q name = some x) ∧
    (∀ name, name ∉ root.q.map (·.1) → dictGet out.q name = dictGet (recv.getD ⟨[], none⟩).q name) ∧
    (∀ t, root.time = some t → out.time = some t) ∧
    (root.time = none → out.time = (recv.getD ⟨[], none⟩).time) := by
  unfold gatherState at h
  simp only at h
  split at h
  · cases h
  · cases hx : gatherLoop conv gq (root :: others) (root.q.map (·.1)) 0 (recvOf recv).q with
    | error e => rw [hx] at h; cases h
    | ok q =>
      rw [hx] at h
      cases h
      have hsp := gatherLoop_spec conv gq (root :: others) _ 0 _ q hn hx
      refine ⟨?_, hsp.2, ?_, ?_⟩
      · intro name hname
        obtain ⟨k, hk⟩ := List.getElem?_of_mem hname
        obtain ⟨x, h1, h2⟩ := hsp.1 k name hk
        rw [Nat.zero_add] at h1
        rw [column_eq conv hn hk (root :: others) (by
          intro s hs
          rcases List.mem_cons.1 hs with rfl | hs
          · rfl
          · exact hsame s hs)] at h1
        exact ⟨x, h1, h2⟩
      · intro t ht; simp only [ht]
      · intro ht; simp only [ht]; rfl

/-! ### Examples -/

/-- quantities are lists of numbers; a rank receives its element, a gather concatenates -/
example : (match scatterState (fun r (q : List Nat) _ => .ok [q.getD r 0])
      (⟨[("u", [1, 2, 3]), ("v", [4, 5, 6])], some "noon"⟩ : St (List Nat) String)
      (some ⟨[("w", [9]), ("v", [0])], none⟩) 2 with
    | .ok (s, tr) => some (s.q, s.time, tr.length)
    | .error _ => none) = some ([("w", [9]), ("v", [6]), ("u", [3])], some "noon", 6) := by decide +kernel

example : (match gatherState id (fun (qs : List (List Nat)) _ => .ok qs.flatten)
      ([⟨[("u", [1]), ("v", [4])], some "noon"⟩, ⟨[("u", [2]), ("v", [5])], none⟩] : List (St (List Nat) String))
      none with
    | .ok s => some (s.q, s.time)
    | .error _ => none) = some ([("u", [1, 2]), ("v", [4, 5])], some "noon") := by decide +kernel

/-- The hypothesis that the ranks' dictionaries have the same order is needed: entries are matched by
position. With two entries swapped on one rank, the root's `u` gets that rank's `v`. -/
theorem C30_gather_order_violated : (match gatherState id (fun (qs : List (List Nat)) _ => .ok qs.flatten)
      ([⟨[("u", [1]), ("v", [4])], none⟩, ⟨[("v", [5]), ("u", [2])], none⟩] : List (St (List Nat) String))
      none with
    | .ok s => dictGet s.q "u"
    | .error _ => none) = some [1, 5] := by decide +kernel

end NDSL
