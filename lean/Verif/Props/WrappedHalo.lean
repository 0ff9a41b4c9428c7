import Verif.Model.WrappedHalo

/-! C141: the halo updater that looks its quantities up in a state. -/
namespace NDSL.WrappedHalo

/-- The pair holds, in the order of the names, the quantities the state has under them. -/
def Holds (s : State) (x : List String) (y : Option (List String)) (p : Pair) : Prop :=
  x.map s.held = p.1.map some ∧ y.map (·.map s.held) = p.2.map (·.map some)

theorem collect_ok {s : State} {ns : List String} {qs : List Nat} : s.collect ns = .ok qs ↔ ns.map s.held = qs.map some := by
  induction ns generalizing qs with
  | nil => cases qs <;> simp [State.collect]
  | cons n ns ih =>
    unfold State.collect State.get
    cases hn : s.held n with
    | none => cases qs <;> simp [bind, Except.bind, hn]
    | some q =>
      simp only [bind, Except.bind]
      cases hc : s.collect ns with
      | error e =>
        cases qs with
        | nil => simp
        | cons q' qs =>
          simp only [List.map_cons, hn, List.cons.injEq, Option.some.injEq]
          constructor
          · intro h; cases h
          · intro h
            have := ih.mpr h.2
            rw [hc] at this; cases this
      | ok r =>
        cases qs with
        | nil => simp [pure, Except.pure]
        | cons q' qs =>
          have := (ih (qs := r)).mp hc
          simp only [pure, Except.pure, Except.ok.injEq, List.cons.injEq, List.map_cons, hn, Option.some.injEq]
          constructor
          · rintro ⟨rfl, rfl⟩; exact ⟨rfl, this⟩
          · rintro ⟨rfl, h⟩
            refine ⟨rfl, ?_⟩
            have h2 := ih.mpr h
            rw [hc] at h2
            exact Except.ok.inj h2

theorem start_ok {w w' : W} (h : w.start = .ok w') :
    w.state.kind ≠ .other ∧ w.inflight = none ∧ ∃ p, Holds w.state w.x w.y p ∧
      w' = { w with inflight := some p, log := w.log ++ [.packed p] } := by
  have key : ∀ p, w.startUpdater p = .ok w' → w.inflight = none ∧ w' = { w with inflight := some p, log := w.log ++ [.packed p] } := by
    intro p hp
    unfold W.startUpdater at hp
    cases hi : w.inflight with
    | some _ => rw [hi] at hp; cases hp
    | none => rw [hi] at hp; exact ⟨rfl, (Except.ok.inj hp).symm⟩
  unfold W.start at h
  cases hy : w.y with
  | none =>
    rw [hy] at h
    cases hc : w.state.collect w.x with
    | error e => cases hk : w.state.kind <;> simp [hk, hc, bind, Except.bind] at h
    | ok xs =>
      have hk : w.state.kind ≠ .other := by intro hk; simp [hk] at h
      have hs : w.startUpdater (xs, none) = .ok w' := by
        cases hk' : w.state.kind <;> simp [hk', hc, bind, Except.bind] at h
        · exact h
        · exact h
      obtain ⟨a, b⟩ := key _ hs
      exact ⟨hk, a, (xs, none), ⟨collect_ok.mp hc, by simp⟩, by rw [b]; simp only [hy]⟩
  | some y =>
    rw [hy] at h
    cases hc : w.state.collect w.x with
    | error e => cases hk : w.state.kind <;> simp [hk, hc, bind, Except.bind] at h
    | ok xs =>
      cases hd : w.state.collect y with
      | error e => cases hk : w.state.kind <;> simp [hk, hc, hd, bind, Except.bind] at h
      | ok ys =>
        have hk : w.state.kind ≠ .other := by intro hk; simp [hk] at h
        have hs : w.startUpdater (xs, some ys) = .ok w' := by
          cases hk' : w.state.kind <;> simp [hk', hc, hd, bind, Except.bind] at h
          · exact h
          · exact h
        obtain ⟨a, b⟩ := key _ hs
        exact ⟨hk, a, (xs, some ys), ⟨collect_ok.mp hc, by simpa using collect_ok.mp hd⟩, by rw [b]; simp only [hy]⟩

/-- **C141**: when no exchange is in flight and the state, a dataclass or a dictionary, has all names, a start hands
over the quantities the state holds now, in the order of the names. -/
theorem C141_start {w : W} {p : Pair} (hi : w.inflight = none) (hk : w.state.kind ≠ .other) (hp : Holds w.state w.x w.y p) :
    w.start = .ok { w with inflight := some p, log := w.log ++ [.packed p] } := by
  obtain ⟨xs, ys⟩ := p
  obtain ⟨h1, h2⟩ := hp
  have hc := collect_ok.mpr h1
  unfold W.start
  cases hy : w.y with
  | none =>
    rw [hy] at h2
    have : ys = none := by cases ys <;> simp_all
    subst this
    cases hk' : w.state.kind <;> simp_all [bind, Except.bind, W.startUpdater]
  | some y =>
    rw [hy] at h2
    cases ys with
    | none => simp at h2
    | some ys =>
      have hd : w.state.collect y = .ok ys := collect_ok.mpr (by simpa using h2)
      cases hk' : w.state.kind <;> simp_all [bind, Except.bind, W.startUpdater]

/-- **C141**: an update is a start and its wait: the quantities held now are packed and unpacked. -/
theorem C141_update {w : W} {p : Pair} (hi : w.inflight = none) (hk : w.state.kind ≠ .other) (hp : Holds w.state w.x w.y p) :
    w.update = .ok { w with log := w.log ++ [.packed p, .unpacked p] } := by
  unfold W.update
  rw [C141_start hi hk hp]
  simp [bind, Except.bind, W.wait, hi]

/-- What an operation does to the state alone. -/
theorem step_same {w w' : W} {op : Op} (h : w.step op = .ok w') : w'.x = w.x ∧ w'.y = w.y := by
  cases op with
  | assign n q => cases Except.ok.inj h; exact ⟨rfl, rfl⟩
  | remove n => cases Except.ok.inj h; exact ⟨rfl, rfl⟩
  | start => obtain ⟨_, _, p, _, rfl⟩ := start_ok h; exact ⟨rfl, rfl⟩
  | wait =>
    simp only [W.step, W.wait] at h
    cases hi : w.inflight with
    | none => rw [hi] at h; cases h
    | some p => rw [hi] at h; cases Except.ok.inj h; exact ⟨rfl, rfl⟩
  | update =>
    simp only [W.step, W.update, bind, Except.bind] at h
    cases hs : w.start with
    | error e => rw [hs] at h; cases h
    | ok v =>
      rw [hs] at h
      obtain ⟨_, _, p, _, rfl⟩ := start_ok hs
      simp only [W.wait] at h
      cases Except.ok.inj h; exact ⟨rfl, rfl⟩
  | interface =>
    simp only [W.step, W.interface, bind, Except.bind] at h
    repeat' split at h
    all_goals first | cases h; done | skip
    all_goals
      cases Except.ok.inj h
      exact ⟨rfl, rfl⟩

/-- The events of exchanges, without those of the communicator. -/
def exchanges (l : List Event) : List Event := l.filter fun
  | .synchronized _ _ => false
  | _ => true

/-- Exchanges one after the other, each unpacking what it packed, and perhaps one not finished. -/
def Paired (l : List Event) (now : Option Pair) : Prop :=
  ∃ done : List Pair, exchanges l = done.flatMap (fun p => [.packed p, .unpacked p]) ++ now.toList.map .packed

theorem exchanges_append (a b : List Event) : exchanges (a ++ b) = exchanges a ++ exchanges b := by
  simp [exchanges]

/-- What one operation adds to the log. -/
theorem step_log {w w' : W} {op : Op} (h : w.step op = .ok w') :
    (exchanges w'.log = exchanges w.log ∧ w'.inflight = w.inflight) ∨
    (∃ p, op = .start ∧ w.inflight = none ∧ w'.inflight = some p ∧ Holds w.state w.x w.y p ∧
      exchanges w'.log = exchanges w.log ++ [.packed p]) ∨
    (∃ p, w.inflight = some p ∧ w'.inflight = none ∧ exchanges w'.log = exchanges w.log ++ [.unpacked p]) ∨
    (∃ p, op = .update ∧ w.inflight = none ∧ w'.inflight = none ∧ Holds w.state w.x w.y p ∧
      exchanges w'.log = exchanges w.log ++ [.packed p, .unpacked p]) := by
  cases op with
  | assign n q => cases Except.ok.inj h; exact .inl ⟨rfl, rfl⟩
  | remove n => cases Except.ok.inj h; exact .inl ⟨rfl, rfl⟩
  | start =>
    obtain ⟨_, hi, p, hp, rfl⟩ := start_ok h
    exact .inr (.inl ⟨p, rfl, hi, rfl, hp, by rw [exchanges_append]; rfl⟩)
  | wait =>
    simp only [W.step, W.wait] at h
    cases hi : w.inflight with
    | none => rw [hi] at h; cases h
    | some p =>
      rw [hi] at h
      cases Except.ok.inj h
      exact .inr (.inr (.inl ⟨p, rfl, rfl, by rw [exchanges_append]; rfl⟩))
  | update =>
    simp only [W.step, W.update, bind, Except.bind] at h
    cases hs : w.start with
    | error e => rw [hs] at h; cases h
    | ok v =>
      rw [hs] at h
      obtain ⟨_, hi, p, hp, rfl⟩ := start_ok hs
      simp only [W.wait] at h
      cases Except.ok.inj h
      refine .inr (.inr (.inr ⟨p, rfl, hi, rfl, hp, ?_⟩))
      simp only [exchanges_append, List.append_assoc]
      rfl
  | interface =>
    simp only [W.step, W.interface, bind, Except.bind] at h
    repeat' split at h
    all_goals first | cases h; done | skip
    all_goals
      cases Except.ok.inj h
      refine .inl ⟨?_, rfl⟩
      rw [exchanges_append]
      simp [exchanges]

theorem paired_step {w w' : W} {op : Op} (h : w.step op = .ok w') (hp : Paired w.log w.inflight) : Paired w'.log w'.inflight := by
  obtain ⟨done, hd⟩ := hp
  rcases step_log h with ⟨a, b⟩ | ⟨p, _, a, b, _, c⟩ | ⟨p, a, b, c⟩ | ⟨p, _, a, b, _, c⟩
  · exact ⟨done, by rw [a, b, hd]⟩
  · exact ⟨done, by rw [c, b, hd, a]; simp⟩
  · exact ⟨done ++ [p], by rw [c, b, hd, a]; simp⟩
  · exact ⟨done ++ [p], by rw [c, b, hd, a]; simp⟩

theorem paired_run {w : W} (hp : Paired w.log w.inflight) (ops : List Op) : Paired (w.run ops).log (w.run ops).inflight := by
  induction ops generalizing w with
  | nil => exact hp
  | cons op ops ih =>
    unfold W.run
    cases h : w.step op with
    | error e => exact ih hp
    | ok w' => exact ih (paired_step h hp)

/-- **C141**: in any history of assignments to the state and calls of the wrapper, with exceptions caught, exchanges do
not overlap and each unpacks into the quantities it packed, whatever was put into the state in between. -/
theorem C141_history (s : State) (x : List String) (y : Option (List String)) (comm : Bool) (ops : List Op) :
    Paired ((W.new s x y comm).run ops).log ((W.new s x y comm).run ops).inflight :=
  paired_run ⟨[], rfl⟩ ops

theorem run_append (w : W) (a b : List Op) : w.run (a ++ b) = (w.run a).run b := by
  induction a generalizing w with
  | nil => rfl
  | cons op a ih =>
    simp only [List.cons_append, W.run]
    cases w.step op <;> exact ih _

theorem mem_exchanges {p : Pair} {l : List Event} : .packed p ∈ l ↔ .packed p ∈ exchanges l := by
  simp [exchanges]

theorem run_same (w : W) (ops : List Op) : (w.run ops).x = w.x ∧ (w.run ops).y = w.y := by
  induction ops generalizing w with
  | nil => exact ⟨rfl, rfl⟩
  | cons op ops ih =>
    unfold W.run
    cases h : w.step op with
    | error e => exact ih w
    | ok w' => rw [(ih w').1, (ih w').2, (step_same h).1, (step_same h).2]; exact ⟨rfl, rfl⟩

theorem packed_from {w : W} {ops : List Op} {p : Pair} (h : .packed p ∈ (w.run ops).log) :
    .packed p ∈ w.log ∨ ∃ pre op post, ops = pre ++ op :: post ∧ (op = .start ∨ op = .update) ∧ Holds (w.run pre).state w.x w.y p := by
  induction ops generalizing w with
  | nil => exact .inl h
  | cons op ops ih =>
    unfold W.run at h
    cases hs : w.step op with
    | error e =>
      rw [hs] at h
      rcases ih h with h | ⟨pre, o, post, rfl, ho, hh⟩
      · exact .inl h
      · exact .inr ⟨op :: pre, o, post, rfl, ho, by simpa only [W.run, hs] using hh⟩
    | ok w' =>
      rw [hs] at h
      rcases ih h with h | ⟨pre, o, post, rfl, ho, hh⟩
      · rw [mem_exchanges] at h
        rcases step_log hs with ⟨a, _⟩ | ⟨q, e, _, _, hq, c⟩ | ⟨q, _, _, c⟩ | ⟨q, e, _, _, hq, c⟩
        · rw [a, ← mem_exchanges] at h; exact .inl h
        · rw [c] at h
          rcases List.mem_append.mp h with h | h
          · exact .inl (mem_exchanges.mpr h)
          · simp only [List.mem_singleton, Event.packed.injEq] at h
            subst h
            exact .inr ⟨[], op, ops, rfl, .inl e, hq⟩
        · rw [c] at h
          rcases List.mem_append.mp h with h | h
          · exact .inl (mem_exchanges.mpr h)
          · simp at h
        · rw [c] at h
          rcases List.mem_append.mp h with h | h
          · exact .inl (mem_exchanges.mpr h)
          · simp at h
            subst h
            exact .inr ⟨[], op, ops, rfl, .inr e, hq⟩
      · refine .inr ⟨op :: pre, o, post, rfl, ho, ?_⟩
        rw [(step_same hs).1, (step_same hs).2] at hh
        simpa only [W.run, hs] using hh

/-- **C141**: whatever is exchanged was held by the state, under the names of the wrapper, at the call that started the
exchange, not when the wrapper was made. -/
theorem C141_current {s : State} {x : List String} {y : Option (List String)} {comm : Bool} {ops : List Op} {p : Pair}
    (h : .packed p ∈ ((W.new s x y comm).run ops).log) :
    ∃ pre op post, ops = pre ++ op :: post ∧ (op = .start ∨ op = .update) ∧ Holds ((W.new s x y comm).run pre).state x y p := by
  rcases packed_from h with h | h
  · cases h
  · exact h

/-- **C141**: a name the state has not ends a start with the exception of the look-up, and nothing is exchanged. -/
theorem C141_missing {w : W} {n : String} (hn : n ∈ w.x ∨ ∃ y, w.y = some y ∧ n ∈ y) (hs : w.state.held n = none) :
    (w.state.kind = .dict → w.start = .error .keyError ∧ w.update = .error .keyError) ∧
    (w.state.kind = .dataclass → w.start = .error .attributeError ∧ w.update = .error .attributeError) := by
  have bad : ∀ ns, n ∈ ns → w.state.collect ns = .error (if w.state.kind = .dict then .keyError else .attributeError) := by
    intro ns
    induction ns with
    | nil => intro h; cases h
    | cons m ns ih =>
      intro h
      unfold State.collect State.get
      cases hm : w.state.held m with
      | none => simp [bind, Except.bind]
      | some q =>
        rcases List.mem_cons.mp h with rfl | h
        · rw [hs] at hm; cases hm
        · simp [bind, Except.bind, ih h]
  have all : ∀ ns, (∃ r, w.state.collect ns = .ok r) ∨
      w.state.collect ns = .error (if w.state.kind = .dict then .keyError else .attributeError) := by
    intro ns
    induction ns with
    | nil => exact .inl ⟨[], rfl⟩
    | cons m ns ih =>
      unfold State.collect State.get
      cases hm : w.state.held m with
      | none => simp [bind, Except.bind]
      | some q =>
        rcases ih with ⟨r, h⟩ | h <;> simp [bind, Except.bind, h, pure, Except.pure]
  have key : w.state.kind ≠ .other → w.start = .error (if w.state.kind = .dict then .keyError else .attributeError) := by
    intro hk
    unfold W.start
    cases hy : w.y with
    | none =>
      have hx : n ∈ w.x := by
        rcases hn with h | ⟨y, h, _⟩
        · exact h
        · rw [hy] at h; cases h
      have := bad _ hx
      cases hk' : w.state.kind <;> simp_all [bind, Except.bind]
    | some y =>
      rcases all w.x with ⟨r, h⟩ | h
      · have hx : n ∈ y := by
          rcases hn with h' | ⟨y', h', hm⟩
          · have := bad _ h'; rw [h] at this; cases this
          · rw [hy] at h'; cases Option.some.inj h'; exact hm
        have := bad _ hx
        cases hk' : w.state.kind <;> simp_all [bind, Except.bind]
      · cases hk' : w.state.kind <;> simp_all [bind, Except.bind]
  constructor
  · intro h
    have := key (by rw [h]; decide)
    simp [W.update, this, h, bind, Except.bind]
  · intro h
    have := key (by rw [h]; decide)
    simp [W.update, this, h, bind, Except.bind]

/-- **C141**: a state that is neither a dataclass nor a dictionary is refused at the first start, even if it has
attributes of these names. -/
theorem C141_other {w : W} (h : w.state.kind = .other) :
    w.start = .error .notImplemented ∧ w.update = .error .notImplemented := by
  have : w.start = .error .notImplemented := by
    unfold W.start
    cases w.y <;> simp [h]
  simp [this, W.update, bind, Except.bind]

/-- **C141**: a second start without a wait, and a wait without a start, are refused. -/
theorem C141_refused {w : W} :
    (∀ p, w.inflight = some p → ∀ w', w.start ≠ .ok w') ∧ (w.inflight = none → w.wait = .error .runtime) := by
  refine ⟨fun p hp w' h => ?_, fun h => by simp [W.wait, h]⟩
  obtain ⟨_, hi, _⟩ := start_ok h
  rw [hp] at hi; cases hi

/-- **C141**: the interfaces of the two quantities held by a dataclass are made the same; a number of names other than
one, or no communicator, is refused. -/
theorem C141_interface {w : W} {a b : String} {p q : Nat} (hc : w.comm = true) (hx : w.x = [a]) (hy : w.y = some [b])
    (hk : w.state.kind ≠ .dict) (ha : w.state.held a = some p) (hb : w.state.held b = some q) :
    w.interface = .ok { w with log := w.log ++ [.synchronized p q] } := by
  unfold W.interface
  simp [hc, hx, hy, State.attr, hk, ha, hb, bind, Except.bind, pure, Except.pure]

theorem C141_interface_refused {w : W} (h : w.comm = false ∨ w.y = none ∨ w.x.length ≠ 1 ∨ ∃ y, w.y = some y ∧ y.length ≠ 1) :
    w.interface = .error .assertion := by
  unfold W.interface
  cases hc : w.comm with
  | false => simp
  | true =>
    simp only [Bool.true_eq_false, if_false]
    cases hy : w.y with
    | none => rfl
    | some y =>
      simp only
      split
      · rename_i a b hx _ hb
        exfalso
        rcases h with h | h | h | ⟨y', h, hl⟩
        · rw [hc] at h; cases h
        · rw [hy] at h; cases h
        · rw [hb] at h; exact h rfl
        · rw [hy] at h; cases Option.some.inj h; exact hl rfl
      · rfl

/-- C141, what does not hold: with a dictionary as state, with which updates work, the interfaces are never made the
same. -/
theorem C141_interface_violated {w : W} (h : w.state.kind = .dict) : ∀ w', w.interface ≠ .ok w' := by
  intro w' hw
  simp only [W.interface, State.attr, h, bind, Except.bind] at hw
  repeat' split at hw
  all_goals simp_all

/-- **C141**: of a dictionary, the check says whether it has the name. -/
theorem C141_check {s : State} (h : s.kind = .dict) (n : String) : checkFor s n = .ok (.truth (s.held n).isSome) := by
  simp [checkFor, h]

/-- C141, what does not hold: of a dataclass, the check never says no: it gives the attribute or an `AttributeError`;
of any other object it says no even if the attribute is there. -/
theorem C141_check_violated :
    (∀ (s : State) (n : String), s.kind = .dataclass → checkFor s n ≠ .ok (.truth false) ∧
      (s.held n = none → checkFor s n = .error .attributeError)) ∧
    (∀ (s : State) (n : String), s.kind = .other → checkFor s n = .ok (.truth false)) := by
  refine ⟨fun s n h => ⟨?_, fun hn => by simp [checkFor, h, hn]⟩, fun s n h => by simp [checkFor, h]⟩
  unfold checkFor
  rw [if_pos h]
  cases s.held n <;> simp

/-! ### A wind of two components, replaced between a start and its wait -/

def winds (k : Kind) : State := ⟨k, fun n => if n = "u" then some 1 else if n = "v" then some 2 else none⟩

example : ((W.new (winds .dict) ["u"] (some ["v"]) true).run
    [.start, .assign "u" 7, .start, .wait, .wait, .remove "v", .update, .assign "v" 8, .update]).log =
    [.packed ([1], some [2]), .unpacked ([1], some [2]), .packed ([7], some [8]), .unpacked ([7], some [8])] := by decide +kernel
example : Holds (winds .dataclass) ["u"] (some ["v"]) ([1], some [2]) := by
  constructor <;> decide +kernel
example : ((W.new (winds .dataclass) ["u"] (some ["v"]) true).run [.interface]).log = [.synchronized 1 2] := by decide +kernel
example : ((W.new (winds .dict) ["u"] (some ["v"]) true).run [.update, .interface]).log.length = 2 := by decide +kernel
example : (winds .dict).held "w" = none ∧ "w" ∈ (W.new (winds .dict) ["u", "w"] none true).x := by decide +kernel

end NDSL.WrappedHalo
