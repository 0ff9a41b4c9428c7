import Verif.Spec.Debugger
import Verif.Lemmas.NetCDF
/-
Property theorems C64: the files of the debugger.
-/
namespace NDSL.Dbg

theorem split_at {a a' b b' : List Char} {x : Char} (ha : x ∉ a) (ha' : x ∉ a')
    (h : a ++ x :: b = a' ++ x :: b') : a = a' ∧ b = b' := by
  induction a generalizing a' with
  | nil =>
    cases a' with
    | nil => exact ⟨rfl, (List.cons.inj h).2⟩
    | cons c a' =>
      have := (List.cons.inj h).1
      exact absurd (this ▸ List.mem_cons_self ..) ha'
  | cons c a ih =>
    cases a' with
    | nil =>
      have := (List.cons.inj h).1
      exact absurd (this ▸ List.mem_cons_self ..) ha
    | cons c' a' =>
      simp only [List.cons_append, List.cons.injEq] at h
      obtain ⟨e1, e2⟩ := ih (fun hx => ha (List.mem_cons_of_mem _ hx))
        (fun hx => ha' (List.mem_cons_of_mem _ hx)) h.2
      exact ⟨by rw [h.1, e1], e2⟩

theorem digits_not {n : Nat} {x : Char} (hx : x.isDigit = false) : x ∉ Nat.toDigits 10 n := by
  intro h
  rw [NetCDF.digits_isDigit h] at hx
  cases hx

theorem digits_inj {n m : Nat} (h : Nat.toDigits 10 n = Nat.toDigits 10 m) : n = m := by
  rw [← NetCDF.digits_value n, h, NetCDF.digits_value]

theorem pad6_not {n : Nat} {x : Char} (hx : x.isDigit = false) : x ∉ pad6 n := by
  intro h
  unfold pad6 at h
  rw [List.mem_append] at h
  rcases h with h | h
  · rw [List.eq_of_mem_replicate h] at hx; exact absurd hx (by decide)
  · exact digits_not hx h

theorem savePath_inj (cfg : Config) {st st' c c' : Nat} {n n' : Name} {io io' : Bool}
    (hn : '-' ∉ n) (hn' : '-' ∉ n')
    (h : savePath cfg st n c io = savePath cfg st' n' c' io') : n = n' ∧ c = c' ∧ io = io' := by
  unfold savePath at h
  have h1 := List.append_cancel_left (List.append_cancel_left (List.append_cancel_left
    (List.append_cancel_left h)))
  obtain ⟨_, h2⟩ := split_at (pad6_not (by decide)) (pad6_not (by decide)) h1
  obtain ⟨h3, h4⟩ := split_at hn hn' h2
  obtain ⟨h5, h6⟩ := split_at (digits_not (by decide)) (digits_not (by decide))
    (List.append_cancel_left h4)
  refine ⟨h3, digits_inj h5, ?_⟩
  cases io <;> cases io' <;> first | rfl | exact absurd h6 (by decide)

theorem trackPath_inj (cfg : Config) {c c' : Nat} {p p' s s' : Name} {io io' : Bool}
    (hn : '/' ∉ p) (hn' : '/' ∉ p')
    (h : trackPath cfg c p s io = trackPath cfg c' p' s' io') : p = p' ∧ c = c' := by
  unfold trackPath at h
  have h1 := List.append_cancel_left (List.append_cancel_left h)
  obtain ⟨h2, h3⟩ := split_at hn hn' h1
  have h4 := List.append_cancel_left (List.append_cancel_left h3)
  simp only [List.cons.injEq, true_and] at h4
  obtain ⟨h5, _⟩ := split_at (digits_not (by decide)) (digits_not (by decide)) h4
  exact ⟨h2, digits_inj h5⟩

theorem paths_ne (cfg : Config) (st c c' : Nat) (n p s : Name) (io io' : Bool) :
    savePath cfg st n c io ≠ trackPath cfg c' p s io' := by
  intro h
  unfold savePath trackPath at h
  have h1 := List.append_cancel_left h
  simp only [List.cons_append, List.nil_append, List.cons.injEq] at h1
  exact absurd h1.2.2.2.2.2.2.2.1 (by decide)

/-- every file so far: of a finished call, or of a call under way (`P`), or of a parameter -/
structure Inv (cfg : Config) (P : Name → Bool → Prop) (s : St) : Prop where
  nodup : s.files.Nodup
  kind : ∀ f ∈ s.files,
    (∃ st n c io, f = savePath cfg st n c io ∧ '-' ∉ n ∧ (c < s.calls n ∨ (c = s.calls n ∧ P n io))) ∨
    (∃ c p src io, f = trackPath cfg c p src io ∧ '/' ∉ p ∧ c < s.tracks p)

theorem Inv.save {cfg : Config} {P : Name → Bool → Prop} {s : St} (h : Inv cfg P s) {n : Name}
    {io : Bool} (hn : '-' ∉ n) (hP : ¬ P n io) :
    Inv cfg (fun m b => P m b ∨ (m = n ∧ b = io)) (s.save cfg n io) := by
  unfold St.save
  split
  · constructor
    · show (s.files ++ [_]).Nodup
      rw [List.nodup_append]
      refine ⟨h.nodup, by simp, ?_⟩
      intro a ha b hb hab
      rw [List.mem_singleton] at hb
      subst hb; subst hab
      rcases h.kind _ ha with ⟨st, m, c, io', he, hm, hc⟩ | ⟨c, p, src, io', he, _, _⟩
      · obtain ⟨rfl, rfl, rfl⟩ := savePath_inj cfg hn hm he
        rcases hc with hc | ⟨_, hc⟩
        · omega
        · exact hP hc
      · exact paths_ne cfg _ _ _ _ _ _ _ _ he
    · intro f hf
      rcases List.mem_append.1 hf with hf | hf
      · rcases h.kind f hf with ⟨st, m, c, io', he, hm, hc⟩ | h2
        · exact Or.inl ⟨st, m, c, io', he, hm, hc.imp_right fun hc => ⟨hc.1, Or.inl hc.2⟩⟩
        · exact Or.inr h2
      · rw [List.mem_singleton] at hf
        exact Or.inl ⟨_, n, s.calls n, io, hf, hn, Or.inr ⟨rfl, Or.inr ⟨rfl, rfl⟩⟩⟩
  · constructor
    · exact h.nodup
    · intro f hf
      rcases h.kind f hf with ⟨st, m, c, io', he, hm, hc⟩ | h2
      · exact Or.inl ⟨st, m, c, io', he, hm, hc.imp_right fun hc => ⟨hc.1, Or.inl hc.2⟩⟩
      · exact Or.inr h2

theorem Inv.trackOne {cfg : Config} {P : Name → Bool → Prop} {s : St} (h : Inv cfg P s)
    {src p : Name} {io : Bool} (hp : '/' ∉ p) : Inv cfg P (s.trackOne cfg src io p) := by
  unfold St.trackOne
  split
  · constructor
    · show (s.files ++ [_]).Nodup
      rw [List.nodup_append]
      refine ⟨h.nodup, by simp, ?_⟩
      intro a ha b hb hab
      rw [List.mem_singleton] at hb
      subst hb; subst hab
      rcases h.kind _ ha with ⟨st, m, c, io', he, hm, hc⟩ | ⟨c, p', src', io', he, hp', hc⟩
      · exact paths_ne cfg _ _ _ _ _ _ _ _ he.symm
      · obtain ⟨rfl, rfl⟩ := trackPath_inj cfg hp hp' he
        omega
    · intro f hf
      rcases List.mem_append.1 hf with hf | hf
      · rcases h.kind f hf with h1 | ⟨c, p', src', io', he, hp', hc⟩
        · exact Or.inl h1
        · refine Or.inr ⟨c, p', src', io', he, hp', ?_⟩
          simp only
          split
          · rename_i h'; subst h'; omega
          · exact hc
      · rw [List.mem_singleton] at hf
        refine Or.inr ⟨_, p, src, io, hf, hp, ?_⟩
        simp
  · exact h

theorem Inv.track {cfg : Config} {P : Name → Bool → Prop} {src : Name} {io : Bool} :
    ∀ (ps : List Name) {s : St}, Inv cfg P s → (∀ p ∈ ps, '/' ∉ p) →
      Inv cfg P (s.track cfg ps src io)
  | [], _, h, _ => h
  | p :: ps, _, h, hp => Inv.track (src := src) (io := io) ps
      (h.trackOne (hp p (List.mem_cons_self ..))) (fun q hq => hp q (List.mem_cons_of_mem _ hq))

theorem Inv.increment {cfg : Config} {P : Name → Bool → Prop} {s : St} {n : Name}
    (h : Inv cfg (fun m b => P m b ∨ m = n) s) : Inv cfg P (s.increment n) := by
  constructor
  · exact h.nodup
  · intro f hf
    rcases h.kind f hf with ⟨st, m, c, io, he, hm, hc⟩ | h2
    · refine Or.inl ⟨st, m, c, io, he, hm, ?_⟩
      show c < (if m = n then s.calls n + 1 else s.calls m) ∨
        (c = (if m = n then s.calls n + 1 else s.calls m) ∧ P m io)
      by_cases hmn : m = n
      · subst hmn
        rw [if_pos rfl]
        left
        rcases hc with hc | ⟨hc, _⟩ <;> omega
      · rw [if_neg hmn]
        rcases hc with hc | ⟨hc, h3⟩
        · exact Or.inl hc
        · exact Or.inr ⟨hc, h3.resolve_right hmn⟩
    · exact Or.inr h2

theorem Inv.mono {cfg : Config} {P Q : Name → Bool → Prop} {s : St} (h : Inv cfg P s)
    (hPQ : ∀ n b, P n b → Q n b) : Inv cfg Q s := by
  refine ⟨h.nodup, fun f hf => ?_⟩
  rcases h.kind f hf with ⟨st, m, c, io, he, hm, hc⟩ | h2
  · exact Or.inl ⟨st, m, c, io, he, hm, hc.imp_right fun hc => ⟨hc.1, hPQ _ _ hc.2⟩⟩
  · exact Or.inr h2

theorem Inv.run {cfg : Config} : ∀ (f : Calls) {P : Name → Bool → Prop} {s : St}, Inv cfg P s →
    f.NotRecursive → (∀ n ∈ f.names, '-' ∉ n ∧ ∀ b, ¬ P n b) → (∀ p ∈ f.params, '/' ∉ p) →
    Inv cfg P (s.run cfg f)
  | .done, _, _, h, _, _, _ => h
  | .call n ps inner rest, P, s, h, hr, hn, hp => by
    simp only [Calls.NotRecursive] at hr
    simp only [Calls.names, List.mem_cons, List.mem_append] at hn
    simp only [Calls.params, List.mem_append] at hp
    obtain ⟨hd, hnP⟩ := hn n (Or.inl rfl)
    have h1 := (h.save (io := true) hd (hnP true)).track (src := n) (io := true) ps
      (fun p hq => hp p (Or.inl hq))
    have h2 := Inv.run inner h1 hr.2.1 (fun m hm => ⟨(hn m (Or.inr (Or.inl hm))).1, fun b hb => by
      rcases hb with hb | ⟨hb, _⟩
      · exact (hn m (Or.inr (Or.inl hm))).2 b hb
      · subst hb; exact hr.1 hm⟩) (fun p hq => hp p (Or.inr (Or.inl hq)))
    have h3 := (h2.save (n := n) (io := false) hd (by
      rintro (hb | ⟨_, hb⟩)
      · exact hnP false hb
      · cases hb)).track (src := n) (io := false) ps (fun p hq => hp p (Or.inl hq))
    have h4 : Inv cfg (fun m b => P m b ∨ m = n) _ := h3.mono (by
      rintro m b ((hb | hb) | hb)
      · exact Or.inl hb
      · exact Or.inr hb.1
      · exact Or.inr hb.1)
    have h5 := h4.increment
    exact Inv.run rest h5 hr.2.2 (fun m hm => hn m (Or.inr (Or.inr hm)))
      (fun p hq => hp p (Or.inr (Or.inr hq)))

/-- C64: whatever is called, to whatever depth, and whichever functions and parameters are selected,
no file is written twice in a run, as long as no function is called while it is running. -/
theorem C64_no_overwrite (cfg : Config) (f : Calls) (hr : f.NotRecursive)
    (hn : ∀ n ∈ f.names, '-' ∉ n) (hp : ∀ p ∈ f.params, '/' ∉ p) :
    (St.new.run cfg f).files.Nodup :=
  (Inv.run (P := fun _ _ => False) f ⟨List.nodup_nil, (fun f hf => absurd hf List.not_mem_nil)⟩ hr
    (fun n h => ⟨hn n h, fun _ h => h⟩) hp).nodup

/-- what is written -/
def Calls.writes (cfg : Config) : Calls → Nat
  | .done => 0
  | .call n ps inner rest =>
    (if cfg.saved n then 2 else 0) + 2 * (ps.filter cfg.tracked).length +
      inner.writes cfg + rest.writes cfg

/-- C64: every selected call writes one file before and one after, and every selected parameter of
every call one before and one after; so with `C64_no_overwrite` there are that many files. -/
theorem C64_count (cfg : Config) (f : Calls) :
    (St.new.run cfg f).files.length = f.writes cfg := by
  have hs : ∀ (s : St) n io, (s.save cfg n io).files.length =
      s.files.length + if cfg.saved n then 1 else 0 := by
    intro s n io; unfold St.save; split <;> simp
  have ht : ∀ (ps : List Name) (s : St) n io, (s.track cfg ps n io).files.length =
      s.files.length + (ps.filter cfg.tracked).length := by
    intro ps
    induction ps with
    | nil => intro s n io; rfl
    | cons p ps ih =>
      intro s n io
      show ((s.trackOne cfg n io p).track cfg ps n io).files.length = _
      rw [ih]
      unfold St.trackOne
      split
      · rename_i h; rw [List.filter_cons_of_pos h]; simp; omega
      · rename_i h; rw [List.filter_cons_of_neg h]
  have key : ∀ (f : Calls) (s : St), (s.run cfg f).files.length = s.files.length + f.writes cfg := by
    intro f
    induction f with
    | done => intro s; rfl
    | call n ps inner rest ih1 ih2 =>
      intro s
      simp only [St.run, Calls.writes]
      rw [ih2]
      show ((((s.save cfg n true).track cfg ps n true).run cfg inner).save cfg n false
        |>.track cfg ps n false).files.length + _ = _
      rw [ht, hs, ih1, ht, hs]
      split <;> omega
  rw [key]; simp [St.new]

/-- The file name of a record. -/
def Entry.path (cfg : Config) : Entry → List Char
  | .save st n c io => savePath cfg st n c io
  | .track c p src io => trackPath cfg c p src io

/-- `d n` outputs of `n` are saved but not counted yet. -/
structure LInv (cfg : Config) (d : Name → Nat) (s : St) (log : List Entry) : Prop where
  files : s.files = log.map (Entry.path cfg)
  numbered : ∀ pre e post, log = pre ++ e :: post → e.NumberedAfter pre
  step : s.step = log.countP Entry.isOut
  calls : ∀ n, cfg.saved n = true → s.calls n + d n = log.countP (Entry.isOutOf n)
  tracks : ∀ p, cfg.tracked p = true → s.tracks p = log.countP (Entry.isTrackOf p)

theorem numbered_snoc {log : List Entry} {e : Entry} (h : ∀ pre e post, log = pre ++ e :: post → e.NumberedAfter pre)
    (he : e.NumberedAfter log) : ∀ pre e' post, log ++ [e] = pre ++ e' :: post → e'.NumberedAfter pre := by
  intro pre e' post heq
  rcases List.eq_nil_or_concat' post with hp | ⟨ini, y, hp⟩
  · subst hp
    have := List.append_inj' heq rfl
    rw [← this.1]
    have h2 := this.2
    simp only [List.cons.injEq, and_true] at h2
    rw [← h2]
    exact he
  · subst hp
    have : log ++ [e] = (pre ++ e' :: ini) ++ [y] := by rw [heq]; simp
    exact h pre e' ini (List.append_inj' this rfl).1

theorem LInv.save {cfg : Config} {s : St} {log : List Entry} {d : Name → Nat} (h : LInv cfg d s log) (n : Name)
    (io : Bool) (hd : d n = 0) :
    ∃ log', LInv cfg (fun m => d m + if m = n ∧ io = false then 1 else 0) (s.save cfg n io) log' := by
  unfold St.save
  split
  · rename_i hs
    refine ⟨log ++ [.save s.step n (s.calls n) io], ?_, ?_, ?_, ?_, ?_⟩
    · simp only [List.map_append, List.map_cons, List.map_nil, ← h.files]
      rfl
    · apply numbered_snoc h.numbered
      refine ⟨h.step, ?_⟩
      have := h.calls n hs
      omega
    · simp only [List.countP_append, List.countP_singleton, ← h.step]
      cases io <;> simp [Entry.isOut]
    · intro m hm
      have := h.calls m hm
      simp only [List.countP_append, List.countP_singleton, ← this, Entry.isOutOf]
      cases io
      · by_cases e : m = n
        · subst e; simp; omega
        · have e' : ¬ n = m := fun h => e h.symm
          simp [e, e']
      · simp
    · intro p hp
      simp only [List.countP_append, List.countP_singleton, ← h.tracks p hp, Entry.isTrackOf]
      simp
  · rename_i hs
    refine ⟨log, h.files, h.numbered, h.step, ?_, h.tracks⟩
    intro m hm
    have hne : m ≠ n := fun e => hs (e ▸ hm)
    simp only [hne, false_and, if_false]
    exact h.calls m hm

theorem LInv.trackOne {cfg : Config} {s : St} {log : List Entry} {d : Name → Nat} (h : LInv cfg d s log)
    (src p : Name) (io : Bool) : ∃ log', LInv cfg d (s.trackOne cfg src io p) log' := by
  unfold St.trackOne
  split
  · rename_i hs
    refine ⟨log ++ [.track (s.tracks p) p src io], ?_, ?_, ?_, ?_, ?_⟩
    · simp only [List.map_append, List.map_cons, List.map_nil, ← h.files]
      rfl
    · exact numbered_snoc h.numbered (h.tracks p hs)
    · simp [List.countP_append, ← h.step, Entry.isOut]
    · intro m hm
      simp [List.countP_append, ← h.calls m hm, Entry.isOutOf]
    · intro q hq
      simp only [List.countP_append, List.countP_singleton, Entry.isTrackOf]
      by_cases e : q = p
      · subst e; simp [← h.tracks q hq]
      · have e' : ¬ p = q := fun h => e h.symm
        simp [e, e', ← h.tracks q hq]
  · exact ⟨log, h⟩

theorem LInv.track {cfg : Config} {d : Name → Nat} {src : Name} {io : Bool} :
    ∀ (ps : List Name) {s : St} {log : List Entry}, LInv cfg d s log →
      ∃ log', LInv cfg d (s.track cfg ps src io) log'
  | [], _, log, h => ⟨log, h⟩
  | p :: ps, _, _, h => by
    obtain ⟨log', h'⟩ := h.trackOne src p io
    exact LInv.track ps h'

theorem LInv.run {cfg : Config} : ∀ (f : Calls) {s : St} {log : List Entry},
    LInv cfg (fun _ => 0) s log → ∃ log', LInv cfg (fun _ => 0) (s.run cfg f) log'
  | .done, _, log, h => ⟨log, h⟩
  | .call n ps inner rest, s, log, h => by
    obtain ⟨l1, h1⟩ := h.save n true rfl
    simp only [Bool.true_eq_false, and_false, if_false, Nat.add_zero] at h1
    obtain ⟨l2, h2⟩ := h1.track (src := n) (io := true) ps
    obtain ⟨l3, h3⟩ := LInv.run inner h2
    obtain ⟨l4, h4⟩ := h3.save n false rfl
    obtain ⟨l5, h5⟩ := h4.track (src := n) (io := false) ps
    have h6 : LInv cfg (fun _ => 0) (((((((s.save cfg n true).track cfg ps n true).run cfg inner).save cfg n
        false).track cfg ps n false)).increment n) l5 := by
      refine ⟨h5.files, h5.numbered, h5.step, ?_, h5.tracks⟩
      intro m hm
      have := h5.calls m hm
      unfold St.increment
      simp only at this ⊢
      by_cases e : m = n
      · subst e
        simp only [and_self, if_true] at this ⊢
        omega
      · simp only [e, false_and, if_false] at this ⊢
        omega
    exact LInv.run rest h6

/-- C64: the numbers in the names put the files in order: the step of a saved function is the number of
outputs saved before it, the number of the call is the number of outputs of the same function saved
before it, and the number of a parameter file how often that parameter was saved before; also for
functions that call themselves. -/
theorem C64_numbering (cfg : Config) (f : Calls) :
    ∃ log : List Entry, (St.new.run cfg f).files = log.map (Entry.path cfg) ∧
      ∀ pre e post, log = pre ++ e :: post → e.NumberedAfter pre := by
  obtain ⟨log, h⟩ := LInv.run (cfg := cfg) f (s := St.new) (log := [])
    ⟨rfl, (fun pre e post h => by simp at h), rfl, fun _ _ => rfl, fun _ _ => rfl⟩
  exact ⟨log, h.files, h.numbered⟩

/-- everything selected -/
def demoCfg : Config := ⟨chars! ".", chars! "0", fun _ => true, fun p => p = chars! "q"⟩

/-- Not so for a function that calls itself: the second call writes to the file of the first. -/
theorem C64_recursive_violated :
    ¬ (St.new.run demoCfg (.call (chars! "f") [] (.call (chars! "f") [] .done .done) .done)).files.Nodup := by
  decide +kernel

/-- Nor after a call that raises: nothing is counted, and the next call writes to the same file. -/
theorem C64_raised_violated :
    ¬ ((St.new.save demoCfg (chars! "f") true).save demoCfg (chars! "f") true).files.Nodup := by
  decide +kernel

example : (St.new.run demoCfg (.call (chars! "f") [chars! "q"] (.call (chars! "g") [] .done .done)
    (.call (chars! "f") [] .done .done))).files =
  [chars! "./debug/savepoints/R0/S000000_f-Call0-In.nc4",
   chars! "./debug/tracks/q/R0/0_q_f-In.nc4",
   chars! "./debug/savepoints/R0/S000000_g-Call0-In.nc4",
   chars! "./debug/savepoints/R0/S000000_g-Call0-Out.nc4",
   chars! "./debug/savepoints/R0/S000001_f-Call0-Out.nc4",
   chars! "./debug/tracks/q/R0/1_q_f-Out.nc4",
   chars! "./debug/savepoints/R0/S000002_f-Call1-In.nc4",
   chars! "./debug/savepoints/R0/S000002_f-Call1-Out.nc4"] := by decide +kernel
example : (Calls.call (chars! "f") [chars! "q"] (.call (chars! "g") [] .done .done)
    (.call (chars! "f") [] .done .done)).NotRecursive := by
  simp [Calls.NotRecursive, Calls.names]

end NDSL.Dbg
