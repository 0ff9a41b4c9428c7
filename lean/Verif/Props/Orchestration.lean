import Verif.Spec.Orchestration
/-
C88: a call to an orchestrated program runs with the arguments of that call.
C89: the cache of bound methods binds the object itself.
-/
namespace NDSL.Orch

variable {Lib M : Type}

/-- What the cache knows about a program after a history. -/
def Known (W : World Lib M) (H : List Int → Int) (mode : Mode) (hist : List Call) (p : Nat)
    (x : Exe Lib M) : Prop :=
  libOf W mode p = some x.lib ∧
    (x.skipHash = false → ∃ c ∈ hist, c.prog = p ∧ x.arguments = some (W.marshal x.lib c) ∧
      key H c = some x.argumentsHash)

theorem hashExpected_lib (H : List Int → Int) (exe : Exe Lib M) (c : Call) :
    (hashExpected H exe c).1.lib = exe.lib := by
  unfold hashExpected
  split
  · rfl
  · split <;> rfl

/-- The result for the program of the call. -/
theorem arguments_known (W : World Lib M) (H : List Int → Int) (mode : Mode) (hist : List Call)
    (x : Exe Lib M) (c : Call) (hlib : libOf W mode c.prog = some x.lib)
    (hx : x.skipHash = false → x.arguments = none ∨ (x.arguments = some W.empty ∧ x.argumentsHash = 0) ∨
      ∃ c' ∈ hist, c'.prog = c.prog ∧ x.arguments = some (W.marshal x.lib c') ∧
        key H c' = some x.argumentsHash)
    (h0 : key H c ≠ some 0) :
    (argumentsFor W H x c).1.lib = x.lib ∧
    Known W H mode (hist ++ [c]) c.prog (argumentsFor W H x c).1 ∧
    ((argumentsFor W H x c).2 = W.marshal x.lib c ∨
      ∃ c' ∈ hist, c'.prog = c.prog ∧ key H c ≠ none ∧ key H c' = key H c ∧
        (argumentsFor W H x c).2 = W.marshal x.lib c') := by
  have own : ∀ (e : Exe Lib M) (h : Int), e.lib = x.lib → (e.skipHash = false → key H c = some h) →
      Known W H mode (hist ++ [c]) c.prog
        { e with arguments := some (W.marshal x.lib c), argumentsHash := h } := by
    intro e h he hk
    refine ⟨by rw [hlib]; exact congrArg some he.symm, fun hs => ⟨c, by simp, rfl, ?_, hk hs⟩⟩
    show some (W.marshal x.lib c) = some (W.marshal e.lib c)
    rw [he]
  unfold argumentsFor hashExpected
  by_cases hskip : x.skipHash = true
  · rw [if_pos hskip]
    exact ⟨rfl, own { x with arguments := none } 0 rfl (by simp [hskip]), .inl rfl⟩
  · have hskip : x.skipHash = false := by simpa using hskip
    simp only [hskip, Bool.false_eq_true, if_false]
    cases hk : allHashes H (c.args ++ c.kwargs.map (·.2)) with
    | none =>
      exact ⟨rfl, by
        have := own { x with arguments := none, skipHash := true } 0 rfl (by simp); simpa using this,
        .inl rfl⟩
    | some hs =>
      have hkey : key H c = some (H hs) := by simp [key, hk]
      simp only
      cases ha : x.arguments with
      | none =>
        refine ⟨rfl, ?_, .inl rfl⟩
        have := own x (H hs) rfl (fun _ => hkey)
        simpa using this
      | some m =>
        simp only
        by_cases he : H hs = x.argumentsHash
        · rw [if_pos he]
          rcases hx hskip with h | ⟨-, h⟩ | ⟨c', hc', h1, h2, h3⟩
          · rw [ha] at h; cases h
          · rw [he, h] at hkey; exact absurd hkey h0
          · rw [ha] at h2
            have hm : m = W.marshal x.lib c' := Option.some.inj h2
            refine ⟨rfl, ⟨hlib, fun _ => ⟨c', by simp [hc'], h1, by rw [ha, hm], h3⟩⟩,
              .inr ⟨c', hc', h1, by rw [hkey]; simp, by rw [h3, hkey, he], hm⟩⟩
        · rw [if_neg he]
          refine ⟨rfl, ?_, .inl rfl⟩
          have := own x (H hs) rfl (fun _ => hkey)
          simpa using this

/-- The cache and the outcome of one more call. -/
theorem call_known (W : World Lib M) (H : List Int → Int) (mode : Mode) (hist : List Call)
    (hh : ∀ c ∈ hist, key H c ≠ some 0) :
    (∀ p x, after W H mode hist p = some x → Known W H mode hist p x) ∧
    ∀ c lib, libOf W mode c.prog = some lib → key H c ≠ some 0 →
      ∃ m, (call W H mode (after W H mode hist) c).2 = .ok (lib, m) ∧
        (m = W.marshal lib c ∨ ∃ c' ∈ hist, c'.prog = c.prog ∧ key H c ≠ none ∧
          key H c' = key H c ∧ m = W.marshal lib c') ∧
        ∀ p x, (call W H mode (after W H mode hist) c).1 p = some x →
          Known W H mode (hist ++ [c]) p x := by
  have grow : ∀ (hist : List Call) (c : Call) (p : Nat) (x : Exe Lib M),
      Known W H mode hist p x → Known W H mode (hist ++ [c]) p x := by
    intro hist c p x h
    refine ⟨h.1, fun hs => ?_⟩
    obtain ⟨c', hc', h'⟩ := h.2 hs
    exact ⟨c', by simp [hc'], h'⟩
  have one : ∀ (hist : List Call) (s : Loaded Lib M), (∀ p x, s p = some x → Known W H mode hist p x) →
      ∀ c lib, libOf W mode c.prog = some lib → key H c ≠ some 0 →
      ∃ m, (call W H mode s c).2 = .ok (lib, m) ∧
        (m = W.marshal lib c ∨ ∃ c' ∈ hist, c'.prog = c.prog ∧ key H c ≠ none ∧
          key H c' = key H c ∧ m = W.marshal lib c') ∧
        ∀ p x, (call W H mode s c).1 p = some x → Known W H mode (hist ++ [c]) p x := by
    intro hist s hs c lib hlib h0
    have hmode : mode ≠ .build := by rintro rfl; cases hlib
    -- the executable that is used
    have fin : ∀ (s' : Loaded Lib M) (x : Exe Lib M), prepare W mode s c.prog = .ok s' →
        s' c.prog = some x → (∀ p y, p ≠ c.prog → s' p = some y → s p = some y) → x.lib = lib →
        (x.skipHash = false → x.arguments = none ∨ (x.arguments = some W.empty ∧ x.argumentsHash = 0) ∨
          ∃ c' ∈ hist, c'.prog = c.prog ∧ x.arguments = some (W.marshal x.lib c') ∧
            key H c' = some x.argumentsHash) →
        ∃ m, (call W H mode s c).2 = .ok (lib, m) ∧
          (m = W.marshal lib c ∨ ∃ c' ∈ hist, c'.prog = c.prog ∧ key H c ≠ none ∧
            key H c' = key H c ∧ m = W.marshal lib c') ∧
          ∀ p x, (call W H mode s c).1 p = some x → Known W H mode (hist ++ [c]) p x := by
      intro s' x hp hx hother hxl harg
      obtain ⟨a1, a2, a3⟩ := arguments_known W H mode hist x c (by rw [hlib, hxl]) harg h0
      have hcall : call W H mode s c = (s'.put c.prog (argumentsFor W H x c).1,
          .ok ((argumentsFor W H x c).1.lib, (argumentsFor W H x c).2)) := by
        unfold call
        rw [hp]
        simp only [hx]
      rw [hcall]
      refine ⟨(argumentsFor W H x c).2, by rw [a1, hxl], by rw [← hxl]; exact a3, ?_⟩
      intro p y hy
      simp only [Loaded.put] at hy
      by_cases e : p = c.prog
      · rw [if_pos e] at hy
        cases hy
        rw [e]; exact a2
      · rw [if_neg e] at hy
        exact grow hist c p y (hs p y (hother p y e hy))
    cases hsp : s c.prog with
    | some x =>
      have hk := hs _ x hsp
      refine fin s x ?_ hsp (fun p y _ h => h) ?_ ?_
      · unfold prepare; rw [hsp]; simp only [if_neg hmode]
      · have := hk.1; rw [hlib] at this; exact (Option.some.inj this).symm
      · intro h; exact .inr (.inr (hk.2 h))
    | none =>
      cases mode with
      | build => exact absurd rfl hmode
      | buildAndRun =>
        refine fin (s.put c.prog ⟨W.built c.prog, some W.empty, 0, false⟩)
          ⟨W.built c.prog, some W.empty, 0, false⟩ ?_ ?_ ?_ ?_ ?_
        · unfold prepare; rw [hsp]
        · simp [Loaded.put]
        · intro p y hne hy
          simpa [Loaded.put, hne] using hy
        · exact Option.some.inj hlib
        · intro _; exact .inr (.inl ⟨rfl, rfl⟩)
      | run =>
        refine fin (s.put c.prog ⟨lib, none, 0, false⟩) ⟨lib, none, 0, false⟩ ?_ ?_ ?_ rfl ?_
        · unfold prepare; rw [hsp]
          have : W.precompiled c.prog = some lib := hlib
          simp only [this]
        · simp [Loaded.put]
        · intro p y hne hy
          simpa [Loaded.put, hne] using hy
        · intro _; exact .inl rfl
  have inv : ∀ (rest done : List Call) (s : Loaded Lib M), (∀ c ∈ rest, key H c ≠ some 0) →
      (∀ p x, s p = some x → Known W H mode done p x) →
      ∀ p x, rest.foldl (fun s c => (call W H mode s c).1) s p = some x →
        Known W H mode (done ++ rest) p x := by
    intro rest
    induction rest with
    | nil => intro done s _ hs p x h; simpa using hs p x h
    | cons c rest ih =>
      intro done s h0 hs p x h
      simp only [List.foldl_cons] at h
      have := ih (done ++ [c]) _ (fun x hx => h0 x (by simp [hx])) ?_ p x h
      · simpa using this
      · cases hl : libOf W mode c.prog with
        | some lib =>
          obtain ⟨m, -, -, h3⟩ := one done s hs c lib hl (h0 c (by simp))
          exact h3
        | none =>
          have hsp : s c.prog = none := by
            cases hsp : s c.prog with
            | none => rfl
            | some y => have := (hs _ y hsp).1; rw [hl] at this; cases this
          have : (call W H mode s c).1 = s := by
            unfold call prepare
            rw [hsp]
            cases mode with
            | build => rfl
            | buildAndRun => cases hl
            | run =>
              have hl : W.precompiled c.prog = none := hl
              simp only [hl]
          rw [this]
          intro p y hy
          exact grow done c p y (hs p y hy)
  have hk : ∀ p x, after W H mode hist p = some x → Known W H mode hist p x := by
    intro p x h
    have := inv hist [] (fun _ => none) hh (by intro p x h; cases h) p x h
    simpa using this
  exact ⟨hk, fun c lib hl h0 => one hist _ hk c lib hl h0⟩

/-- **C88**: after any history of calls, a call runs the library of its program, with the arguments
of the call itself, provided that no earlier call of the same program with the same hash had other
arguments (and no hash is zero). -/
theorem C88_own (W : World Lib M) (H : List Int → Int) (mode : Mode) (hist : List Call) (c : Call)
    (lib : Lib) (hlib : libOf W mode c.prog = some lib)
    (hzero : ∀ c' ∈ hist ++ [c], key H c' ≠ some 0)
    (hfaithful : ∀ c' ∈ hist, c'.prog = c.prog → key H c' = key H c → key H c ≠ none →
      W.marshal lib c' = W.marshal lib c) :
    (call W H mode (after W H mode hist) c).2 = .ok (lib, W.marshal lib c) := by
  obtain ⟨-, h⟩ := call_known W H mode hist (fun c hc => hzero c (by simp [hc]))
  obtain ⟨m, h1, h2, -⟩ := h c lib hlib (hzero c (by simp))
  rw [h1]
  rcases h2 with h2 | ⟨c', hc', hp, hn, hk, h2⟩
  · rw [h2]
  · rw [h2, hfaithful c' hc' hp hk hn]

/-- **C88** (arguments without a hash): a call with such an argument runs with its own arguments,
whatever was called before. -/
theorem C88_unhashable (W : World Lib M) (H : List Int → Int) (mode : Mode) (hist : List Call)
    (c : Call) (lib : Lib) (hlib : libOf W mode c.prog = some lib)
    (hzero : ∀ c' ∈ hist, key H c' ≠ some 0) (hn : key H c = none) :
    (call W H mode (after W H mode hist) c).2 = .ok (lib, W.marshal lib c) := by
  obtain ⟨-, h⟩ := call_known W H mode hist hzero
  obtain ⟨m, h1, h2, -⟩ := h c lib hlib (by rw [hn]; simp)
  rw [h1]
  rcases h2 with h2 | ⟨c', hc', hp, hn', hk, h2⟩
  · rw [h2]
  · exact absurd hn hn'

/-- **C88** (never foreign arguments): the arguments used are always those of some call of the same
program. -/
theorem C88_same_program (W : World Lib M) (H : List Int → Int) (mode : Mode) (hist : List Call)
    (c : Call) (lib : Lib) (hlib : libOf W mode c.prog = some lib)
    (hzero : ∀ c' ∈ hist ++ [c], key H c' ≠ some 0) :
    ∃ c' ∈ hist ++ [c], c'.prog = c.prog ∧
      (call W H mode (after W H mode hist) c).2 = .ok (lib, W.marshal lib c') := by
  obtain ⟨-, h⟩ := call_known W H mode hist (fun c hc => hzero c (by simp [hc]))
  obtain ⟨m, h1, h2, -⟩ := h c lib hlib (hzero c (by simp))
  rcases h2 with h2 | ⟨c', hc', hp, hn, hk, h2⟩
  · exact ⟨c, by simp, rfl, by rw [h1, h2]⟩
  · exact ⟨c', by simp [hc'], hp, by rw [h1, h2]⟩

/-- **C88** (no library): in run mode a program without a precompiled library is refused, and in
build mode nothing is ever run. -/
theorem C88_refused (W : World Lib M) (H : List Int → Int) (mode : Mode) (hist : List Call)
    (hzero : ∀ c' ∈ hist, key H c' ≠ some 0) (c : Call) (hlib : libOf W mode c.prog = none) :
    ∃ e, (call W H mode (after W H mode hist) c).2 = .error e ∧
      (mode = .run → e = .error .runtimeError) ∧ (mode = .build → e = .exit) := by
  obtain ⟨h, -⟩ := call_known W H mode hist hzero
  have hsp : after W H mode hist c.prog = none := by
    cases hsp : after W H mode hist c.prog with
    | none => rfl
    | some y => have := (h _ y hsp).1; rw [hlib] at this; cases this
  unfold call prepare
  rw [hsp]
  cases mode with
  | build => exact ⟨_, rfl, by simp, fun _ => rfl⟩
  | buildAndRun => cases hlib
  | run =>
    have hl : W.precompiled c.prog = none := hlib
    simp only [hl]
    exact ⟨_, rfl, fun _ => rfl, by simp⟩

/-- After one call with hashable arguments, a call with the same hash runs with the old
arguments. -/
theorem stale (W : World Lib M) (H : List Int → Int) (c c' : Call) (h : Int)
    (hp : c'.prog = c.prog) (hk : key H c = some h) (hk' : key H c' = some h) (hz : h ≠ 0) :
    (call W H .buildAndRun (after W H .buildAndRun [c]) c').2
      = .ok (W.built c.prog, W.marshal (W.built c.prog) c) := by
  obtain ⟨hs, e1, rfl⟩ : ∃ hs, allHashes H (c.args ++ c.kwargs.map (·.2)) = some hs ∧ H hs = h := by
    unfold key at hk
    cases e : allHashes H (c.args ++ c.kwargs.map (·.2)) with
    | none => rw [e] at hk; cases hk
    | some hs => rw [e] at hk; exact ⟨hs, rfl, Option.some.inj hk⟩
  obtain ⟨hs', e2, e3⟩ : ∃ hs', allHashes H (c'.args ++ c'.kwargs.map (·.2)) = some hs' ∧
      H hs' = H hs := by
    unfold key at hk'
    cases e : allHashes H (c'.args ++ c'.kwargs.map (·.2)) with
    | none => rw [e] at hk'; cases hk'
    | some hs => rw [e] at hk'; exact ⟨hs, rfl, Option.some.inj hk'⟩
  have h1 : after W H .buildAndRun [c] = fun q => if q = c.prog then
      some ⟨W.built c.prog, some (W.marshal (W.built c.prog) c), H hs, false⟩ else none := by
    funext q
    simp only [after, List.foldl_cons, List.foldl_nil, call, prepare, Loaded.put, if_pos,
      argumentsFor, hashExpected, Bool.false_eq_true, if_false, e1, if_neg hz]
    split <;> simp_all
  rw [h1]
  simp only [call, prepare, hp, if_true, reduceCtorEq, if_false, argumentsFor, hashExpected,
    Bool.false_eq_true, e2, e3]

/-- **C88** (swapped keywords): the names of keyword arguments are not part of the hash. For any
hash function, calling `f(a=x, b=y)` and then `f(b=x, a=y)` runs the second call with the arguments
of the first. -/
theorem C88_keywords_violated (W : World Lib M) (H : List Int → Int) (p a b : Nat) (x y : Arg) (h : Int)
    (hk : key H ⟨p, [], [(a, x), (b, y)], 0⟩ = some h) (hz : h ≠ 0) :
    (call W H .buildAndRun (after W H .buildAndRun [⟨p, [], [(a, x), (b, y)], 0⟩])
        ⟨p, [], [(b, x), (a, y)], 0⟩).2
      = .ok (W.built p, W.marshal (W.built p) ⟨p, [], [(a, x), (b, y)], 0⟩) :=
  stale W H ⟨p, [], [(a, x), (b, y)], 0⟩ ⟨p, [], [(b, x), (a, y)], 0⟩ h rfl hk hk hz

/-- **C88** (minus one): CPython gives -1 and -2 the same hash. For any tuple hash, calling `f(-1)`
and then `f(-2)` runs the second call with -1. -/
theorem C88_minus_one_violated (W : World Lib M) (H : List Int → Int) (p v w : Nat)
    (hz : H [-2] ≠ 0) :
    pyHash (-1) = pyHash (-2) ∧
    (call W H .buildAndRun (after W H .buildAndRun [⟨p, [.value (pyHash (-1)) v], [], 0⟩])
        ⟨p, [.value (pyHash (-2)) w], [], 0⟩).2
      = .ok (W.built p, W.marshal (W.built p) ⟨p, [.value (pyHash (-1)) v], [], 0⟩) := by
  have e1 : pyHash (-1) = -2 := by decide
  have e2 : pyHash (-2) = -2 := by decide
  rw [e1, e2]
  exact ⟨rfl, stale W H ⟨p, [.value (-2) v], [], 0⟩ ⟨p, [.value (-2) w], [], 0⟩ (H [-2]) rfl rfl rfl hz⟩

/-- **C88** (views): only the address of an array is part of the hash. For any hash function, calling
with an array and then with another array that starts at the same address (a part of the first, say)
runs the second call with the first array. -/
theorem C88_views_violated (W : World Lib M) (H : List Int → Int) (p v w : Nat) (address : Int)
    (hz : H [pyHash address] ≠ 0) :
    (call W H .buildAndRun (after W H .buildAndRun [⟨p, [.array address v], [], 0⟩])
        ⟨p, [.array address w], [], 0⟩).2
      = .ok (W.built p, W.marshal (W.built p) ⟨p, [.array address v], [], 0⟩) :=
  stale W H ⟨p, [.array address v], [], 0⟩ ⟨p, [.array address w], [], 0⟩ _ rfl rfl rfl hz

/-- **C88** (attributes): what a program takes from its own object is not part of the hash. For any
hash function, replacing an array that is an attribute of the object between two calls with the same
arguments has no effect: the second call runs on the old array. -/
theorem C88_closure_violated (W : World Lib M) (H : List Int → Int) (p : Nat) (args : List Arg)
    (kwargs : List (Nat × Arg)) (old new : Nat) (h : Int)
    (hk : key H ⟨p, args, kwargs, old⟩ = some h) (hz : h ≠ 0) :
    (call W H .buildAndRun (after W H .buildAndRun [⟨p, args, kwargs, old⟩])
        ⟨p, args, kwargs, new⟩).2
      = .ok (W.built p, W.marshal (W.built p) ⟨p, args, kwargs, old⟩) :=
  stale W H ⟨p, args, kwargs, old⟩ ⟨p, args, kwargs, new⟩ h rfl hk hk hz

/-- **C88** (hash zero): the first call after a build, if its hash is zero, runs without any
arguments. -/
theorem C88_zero_violated (W : World Lib M) (H : List Int → Int) (c : Call)
    (hk : key H c = some 0) :
    (call W H .buildAndRun (after W H .buildAndRun []) c).2 = .ok (W.built c.prog, W.empty) := by
  obtain ⟨hs, e1, e2⟩ : ∃ hs, allHashes H (c.args ++ c.kwargs.map (·.2)) = some hs ∧ H hs = 0 := by
    unfold key at hk
    cases e : allHashes H (c.args ++ c.kwargs.map (·.2)) with
    | none => rw [e] at hk; cases hk
    | some hs => rw [e] at hk; exact ⟨hs, rfl, Option.some.inj hk⟩
  simp only [after, List.foldl_nil, call, prepare, Loaded.put, if_pos, argumentsFor, hashExpected,
    Bool.false_eq_true, if_false, e1, e2]

/-! ### Cases -/

/-- A world in which the marshalled arguments are the call. -/
def plain : World Nat (Option Call) := ⟨fun p => 10 + p, fun p => if p = 0 then some 7 else none,
  fun _ c => some c, none⟩

/-- A hash of lists of integers. -/
def sumHash (l : List Int) : Int := l.foldl (fun a x => 31 * a + x) 1

/-- The conditions of `C88_own` hold for a history with two programs, a changed array, a repeated
call and an argument without a hash. -/
example : ∃ (hist : List Call) (c : Call), hist.length = 4 ∧
    libOf plain .buildAndRun c.prog = some 11 ∧
    (∀ c' ∈ hist ++ [c], key sumHash c' ≠ some 0) ∧
    (∀ c' ∈ hist, c'.prog = c.prog → key sumHash c' = key sumHash c → key sumHash c ≠ none →
      plain.marshal 11 c' = plain.marshal 11 c) :=
  ⟨[⟨1, [.array 64 3, .value 5 5], [], 0⟩, ⟨0, [.array 64 2], [], 0⟩,
    ⟨1, [.array 128 3, .value 5 5], [], 0⟩, ⟨1, [.array 128 3, .unhashable 1], [], 0⟩],
    ⟨1, [.array 128 3, .value 5 5], [], 0⟩, rfl, rfl, by decide, by decide⟩

example : key sumHash ⟨1, [], [(0, .array 64 1), (1, .value 5 5)], 0⟩ ≠ none ∧
    plain.marshal 11 ⟨1, [], [(0, .array 64 1), (1, .value 5 5)], 0⟩ ≠
      plain.marshal 11 ⟨1, [], [(1, .array 64 1), (0, .value 5 5)], 0⟩ := by decide

/-! ### Bound methods -/

/-- What the cache holds is alive, under its own address; live objects have different addresses. -/
def Sound (h : Heap) : Prop :=
  (∀ i j b, h.bound i j = some b → b.obj ∈ h.live ∧ b.func ∈ h.live ∧ b.obj.id = i ∧ b.func.id = j) ∧
  (∀ o ∈ h.live, ∀ o' ∈ h.live, o.id = o'.id → o = o')

theorem reach_sound (h : Heap) (hr : Reach h) : Sound h := by
  induction hr with
  | start => exact ⟨(by intro i j b h; cases h), (by intro o ho; cases ho)⟩
  | new h i _ hi ih =>
    refine ⟨?_, ?_⟩
    · intro a b c hc
      obtain ⟨h1, h2, h3⟩ := ih.1 a b c hc
      exact ⟨List.mem_cons_of_mem _ h1, List.mem_cons_of_mem _ h2, h3⟩
    · intro o ho o' ho' e
      rcases List.mem_cons.mp ho with rfl | ho <;> rcases List.mem_cons.mp ho' with rfl | ho'
      · rfl
      · exact absurd e.symm (hi o' ho')
      · exact absurd e (hi o ho)
      · exact ih.2 o ho o' ho' e
  | gone h o _ hn ih =>
    refine ⟨?_, ?_⟩
    · intro a b c hc
      obtain ⟨h1, h2, h3⟩ := ih.1 a b c hc
      simp only [List.mem_filter, decide_eq_true_eq]
      exact ⟨⟨h1, fun e => hn ⟨a, b, c, hc, .inl e⟩⟩, ⟨h2, fun e => hn ⟨a, b, c, hc, .inr e⟩⟩, h3⟩
    · intro x hx y hy e
      simp only [List.mem_filter] at hx hy
      exact ih.2 x hx.1 y hy.1 e
  | get h obj func config _ ho hf ih =>
    unfold Heap.get
    cases hb : h.bound obj.id func.id with
    | some b => exact ih
    | none =>
      refine ⟨?_, ih.2⟩
      intro i j b hbij
      simp only at hbij
      split at hbij
      · rename_i e
        cases hbij
        exact ⟨ho, hf, e.1.symm, e.2.symm⟩
      · exact ih.1 i j b hbij

/-- **C89**: in every reachable heap, looking up a method of a live object gives a callable for that
very object and that very function, although the cache is keyed by addresses that are used again. -/
theorem C89_bound (h : Heap) (hr : Reach h) (obj func : Obj) (config : Nat) (ho : obj ∈ h.live)
    (hf : func ∈ h.live) :
    (h.get obj func config).2.obj = obj ∧ (h.get obj func config).2.func = func := by
  have hs := reach_sound h hr
  unfold Heap.get
  cases hb : h.bound obj.id func.id with
  | none => exact ⟨rfl, rfl⟩
  | some b =>
    obtain ⟨h1, h2, h3, h4⟩ := hs.1 _ _ b hb
    exact ⟨hs.2 _ h1 _ ho h3, hs.2 _ h2 _ hf h4⟩

/-- **C89** (once): looking up again, whatever happened in between, gives the same callable, so a
method is parsed once. -/
theorem C89_once (h : Heap) (obj func : Obj) (config config' : Nat)
    (h' : Heap) (hlater : h'.bound = (h.get obj func config).1.bound) :
    (h'.get obj func config').2 = (h.get obj func config).2 := by
  unfold Heap.get at hlater ⊢
  cases hb : h.bound obj.id func.id with
  | some b =>
    simp only [hb] at hlater ⊢
    rw [hlater, hb]
  | none =>
    simp only [hb] at hlater ⊢
    rw [hlater]
    simp

/-- **C89** (configuration): orchestrating a method of an object a second time with another
configuration keeps the first one. -/
theorem C89_config_violated :
    ∃ (h : Heap) (obj func : Obj), Reach h ∧ obj ∈ h.live ∧ func ∈ h.live ∧
      (h.get obj func 2).2.config = 1 := by
  refine ⟨((⟨[⟨20, 1⟩, ⟨10, 0⟩], 2, fun _ _ => none⟩ : Heap).get ⟨10, 0⟩ ⟨20, 1⟩ 1).1, ⟨10, 0⟩, ⟨20, 1⟩,
    ?_, by decide, by decide, by decide⟩
  refine .get _ _ _ _ ?_ (by decide) (by decide)
  exact .new ⟨[⟨10, 0⟩], 1, _⟩ 20 (.new ⟨[], 0, _⟩ 10 .start (by simp)) (by simp)

/-- An address that is used again: the first object is gone, since it was never bound. -/
example : ∃ h : Heap, Reach h ∧ (⟨10, 2⟩ : Obj) ∈ h.live ∧ (⟨20, 1⟩ : Obj) ∈ h.live ∧
    (h.get ⟨10, 2⟩ ⟨20, 1⟩ 1).2.obj.serial = 2 := by
  refine ⟨⟨[⟨10, 2⟩, ⟨20, 1⟩], 3, fun _ _ => none⟩, ?_, by decide, by decide, by decide⟩
  have h1 : Reach ⟨[⟨20, 1⟩, ⟨10, 0⟩], 2, fun _ _ => none⟩ :=
    .new ⟨[⟨10, 0⟩], 1, _⟩ 20 (.new ⟨[], 0, _⟩ 10 .start (by simp)) (by simp)
  have h2 := Reach.gone _ ⟨10, 0⟩ h1 (by rintro ⟨i, j, b, h, -⟩; cases h)
  exact .new _ 10 h2 (by decide)

end NDSL.Orch
