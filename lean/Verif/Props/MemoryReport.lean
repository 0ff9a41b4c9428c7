import Mathlib.Tactic.FieldSimp
import Mathlib.Tactic.Ring
import Mathlib.Tactic.NormNum
import Mathlib.Tactic.Linarith
import Mathlib.Algebra.Order.Field.Basic
import Verif.Spec.MemoryReport
import Verif.Props.StencilFactory
/-
C113: what the static analyses of a built program report.
-/
namespace NDSL.Memory

/-! ### The SDFGs visited -/

/-- C113: the analysis visits the program and every SDFG nested in it at any depth, and no other. -/
theorem C113_visited (g : Sdfg) (l : Level) : l ∈ levels g ↔ Within g l := by
  constructor
  · intro h
    induction g using levels.induct with
    | case1 own ns ih =>
      rw [levels] at h
      rcases List.mem_cons.mp h with e | h
      · subst e; exact .own _ _
      · obtain ⟨n, hn, hl⟩ := List.mem_flatMap.mp h
        exact .nested _ _ n _ hn (ih n hn hl)
  · intro h
    induction h with
    | own l ns => rw [levels]; exact List.mem_cons_self
    | nested l ns n m hn _ ih =>
      rw [levels]
      exact List.mem_cons_of_mem _ (List.mem_flatMap.mpr ⟨n, hn, ih⟩)

/-! ### One pass over a list of containers -/

/-- Adding the containers of a list to a report. -/
def extend (r : StorageReport) (xs : List Item) : StorageReport :=
  { referenced := r.referenced + bytesOf xs Item.used
    unreferenced := r.unreferenced + bytesOf xs (fun x => !x.used)
    pooled := r.pooled + bytesOf xs (fun x => x.arr.pool)
    topLevel := r.topLevel + bytesOf xs (fun x => x.top)
    details := r.details ++ xs.map fun x => ⟨x.name, x.arr.bytes, x.used, x.arr.transient, x.arr.pool, x.top⟩ }

theorem extend_nil (r : StorageReport) : extend r [] = r := by
  simp [extend, bytesOf]

theorem bytesOf_append (xs ys : List Item) (p : Item → Bool) : bytesOf (xs ++ ys) p = bytesOf xs p + bytesOf ys p := by
  simp [bytesOf]

theorem extend_append (r : StorageReport) (xs ys : List Item) : extend r (xs ++ ys) = extend (extend r xs) ys := by
  simp [extend, bytesOf_append, Nat.add_assoc, List.append_assoc]

theorem bytesOf_one (x : Item) (p : Item → Bool) : bytesOf [x] p = if p x then x.arr.bytes else 0 := by
  cases h : p x <;> simp [bytesOf, List.filter_cons, h]

theorem visit_eq (top : Bool) (l : Level) (a : Allocs) (e : String × Arr) (s : String) :
    visit top l a e s =
      extend (a s) (if (top || e.2.transient) && decide (e.2.storage = s) then [⟨top, l, e.1, e.2⟩] else []) := by
  obtain ⟨n, x⟩ := e
  have hu : isRef l n = decide (n ∈ l.access) := by
    simp [isRef]
  cases top <;> cases ht : x.transient <;> by_cases hs : x.storage = s <;>
    cases hp : x.pool <;> cases hr : decide (n ∈ l.access) <;>
    simp [visit, Allocs.upd, extend, bytesOf_one, Item.used, hu, ht, hs, hp, hr, bytesOf, eq_comm] <;>
    first
      | done
      | (intro h; exact absurd h.symm hs)
      | (intro h; exact absurd h hs)

theorem fold_eq (top : Bool) (l : Level) (es : List (String × Arr)) (a : Allocs) (s : String) :
    es.foldl (visit top l) a s =
      extend (a s) (((es.filter fun e => top || e.2.transient).map fun e => (⟨top, l, e.1, e.2⟩ : Item)).filter
        fun x => x.arr.storage = s) := by
  induction es generalizing a with
  | nil => simp [extend_nil]
  | cons e es ih =>
    rw [List.foldl_cons, ih, visit_eq, ← extend_append]
    congr 1
    by_cases h1 : (top || e.2.transient) = true
    · by_cases h2 : e.2.storage = s <;> simp [h1, h2]
    · simp [h1]

theorem folds_eq (ls : List Level) (a : Allocs) (s : String) :
    ls.foldl (fun a l => l.arrays.foldl (visit false l) a) a s =
      extend (a s) ((ls.flatMap fun l =>
        (l.arrays.filter fun e => e.2.transient).map fun e => (⟨false, l, e.1, e.2⟩ : Item)).filter
          fun x => x.arr.storage = s) := by
  induction ls generalizing a with
  | nil => simp [extend_nil]
  | cons l ls ih =>
    rw [List.foldl_cons, ih, fold_eq, ← extend_append]
    congr 1
    simp

theorem analyse_eq (g : Sdfg) (s : String) : analyse g s = extend {} (ownersIn g s) := by
  unfold analyse
  rw [folds_eq, fold_eq, ← extend_append]
  congr 1
  simp [ownersIn, owners, List.filter_append]

/-- C113: for every storage the report has one row for each container that stands for memory of its own, in the order of the
program, with its name, size, whether its SDFG uses it, and its flags: nothing is left out and nothing counted twice. -/
theorem C113_rows (g : Sdfg) (s : String) :
    (analyse g s).details = (ownersIn g s).map fun x =>
      ⟨x.name, x.arr.bytes, x.used, x.arr.transient, x.arr.pool, x.top⟩ := by
  rw [analyse_eq]; simp [extend]

/-- C113: the totals are the bytes of the containers used, not used, pooled, and of the outermost SDFG. -/
theorem C113_totals (g : Sdfg) (s : String) :
    (analyse g s).referenced = bytesOf (ownersIn g s) Item.used ∧
    (analyse g s).unreferenced = bytesOf (ownersIn g s) (fun x => !x.used) ∧
    (analyse g s).pooled = bytesOf (ownersIn g s) (fun x => x.arr.pool) ∧
    (analyse g s).topLevel = bytesOf (ownersIn g s) (fun x => x.top) := by
  rw [analyse_eq]; simp [extend]

theorem bytes_split (xs : List Item) (p : Item → Bool) :
    bytesOf xs p + bytesOf xs (fun x => !p x) = (xs.map fun x => x.arr.bytes).sum := by
  induction xs with
  | nil => rfl
  | cons x xs ih =>
    have e1 : ∀ q : Item → Bool, bytesOf (x :: xs) q = bytesOf [x] q + bytesOf xs q :=
      fun q => bytesOf_append [x] xs q
    rw [e1, e1, List.map_cons, List.sum_cons, bytesOf_one, bytesOf_one, ← ih]
    cases p x <;> simp <;> omega

/-- C113: used and unused memory together are all the memory of the storage. -/
theorem C113_split (g : Sdfg) (s : String) :
    (analyse g s).referenced + (analyse g s).unreferenced = ((ownersIn g s).map fun x => x.arr.bytes).sum := by
  rw [(C113_totals g s).1, (C113_totals g s).2.1]
  exact bytes_split _ _

/-- C113: containers that a nested SDFG is given from outside do not count: giving nested SDFGs more of them, or other sizes for
them, changes no number of the analysis. -/
theorem C113_shared (own : Level) (ns ms : List Sdfg)
    (h : (ns.flatMap levels).flatMap (fun l => (l.arrays.filter fun e => e.2.transient).map fun e => (l.access, e)) =
      (ms.flatMap levels).flatMap (fun l => (l.arrays.filter fun e => e.2.transient).map fun e => (l.access, e)))
    (s : String) : analyse (.mk own ns) s = analyse (.mk own ms) s := by
  have key : ∀ (r : StorageReport) (ls : List Level), extend r ((ls.flatMap fun l =>
        (l.arrays.filter fun e => e.2.transient).map fun e => (⟨false, l, e.1, e.2⟩ : Item)).filter
          fun x => x.arr.storage = s) =
      extend r (((ls.flatMap fun l => (l.arrays.filter fun e => e.2.transient).map fun e => (l.access, e)).map
        fun q => (⟨false, ⟨[], q.1, []⟩, q.2.1, q.2.2⟩ : Item)).filter fun x => x.arr.storage = s) := by
    intro r ls
    induction ls generalizing r with
    | nil => rfl
    | cons l ls ih =>
      rw [List.flatMap_cons, List.flatMap_cons, List.map_append, List.filter_append, List.filter_append, extend_append,
        extend_append, ih]
      congr 1
      induction l.arrays generalizing r with
      | nil => rfl
      | cons e es ih2 =>
        by_cases ht : e.2.transient = true
        · simp only [List.filter_cons, ht, if_true, List.map_cons]
          by_cases hs : e.2.storage = s
          · simp only [hs, decide_true, if_true]
            have e1 : ∀ (x : Item) (xs : List Item), extend r (x :: xs) = extend (extend r [x]) xs :=
              fun x xs => extend_append r [x] xs
            have e2 : extend r [(⟨false, l, e.1, e.2⟩ : Item)] = extend r [⟨false, ⟨[], l.access, []⟩, e.1, e.2⟩] := by
              unfold extend
              simp only [bytesOf_one]
              rfl
            rw [e1, e1 (⟨false, ⟨[], l.access, []⟩, e.1, e.2⟩ : Item), e2]
            exact ih2 _
          · simp only [hs, decide_false, Bool.false_eq_true, if_false]
            exact ih2 r
        · simp only [List.filter_cons, ht, Bool.false_eq_true, if_false]
          exact ih2 r
  have e : ∀ ns, analyse (.mk own ns) s = extend (extend {} ((own.arrays.map fun e => (⟨true, own, e.1, e.2⟩ : Item)).filter
      fun x => x.arr.storage = s)) (((ns.flatMap levels).flatMap fun l =>
        (l.arrays.filter fun e => e.2.transient).map fun e => (⟨false, l, e.1, e.2⟩ : Item)).filter
          fun x => x.arr.storage = s) := by
    intro ns
    rw [analyse_eq, ← extend_append, ← List.filter_append]
    rfl
  rw [e, e, key, key, h]

/-! ### The report -/

/-- C113: the report shows the storages of which some memory is used or belongs to the outermost SDFG, each once and in order, with
the four totals, and with all rows when details are asked for. -/
theorem C113_shown (kinds : List String) (g : Sdfg) (detail : Bool) :
    report kinds (analyse g) detail =
      (kinds.filter fun s => 0 < bytesOf (ownersIn g s) (fun x => x.used || x.top)).map fun s =>
        ⟨s, bytesOf (ownersIn g s) Item.used, bytesOf (ownersIn g s) (fun x => !x.used),
          bytesOf (ownersIn g s) (fun x => x.arr.pool), bytesOf (ownersIn g s) (fun x => x.top),
          if detail then (ownersIn g s).map fun x =>
            ⟨x.name, x.arr.bytes, x.used, x.arr.transient, x.arr.pool, x.top⟩ else []⟩ := by
  have hb : ∀ xs : List Item, 0 < bytesOf xs (fun x => x.used || x.top) ↔
      (bytesOf xs Item.used ≠ 0 ∨ bytesOf xs (fun x => x.top) > 0) := by
    intro xs
    induction xs with
    | nil => simp [bytesOf]
    | cons x xs ih =>
      have e1 : ∀ q : Item → Bool, bytesOf (x :: xs) q = bytesOf [x] q + bytesOf xs q :=
        fun q => bytesOf_append [x] xs q
      rw [e1, e1, e1, bytesOf_one, bytesOf_one, bytesOf_one]
      cases x.used <;> cases x.top <;> simp <;> omega
  unfold report
  induction kinds with
  | nil => rfl
  | cons s kinds ih =>
    obtain ⟨h1, h2, h3, h4⟩ := C113_totals g s
    rw [List.filterMap_cons, List.filter_cons]
    dsimp only
    rw [h1, h2, h3, h4, C113_rows]
    by_cases h : 0 < bytesOf (ownersIn g s) (fun x => x.used || x.top)
    · have h' : decide (0 < bytesOf (ownersIn g s) (fun x => x.used || x.top)) = true := decide_eq_true h
      rw [if_pos ((hb _).mp h), if_pos h', List.map_cons]
      exact congrArg _ ih
    · have h' : ¬ decide (0 < bytesOf (ownersIn g s) (fun x => x.used || x.top)) = true := by simpa using h
      rw [if_neg (fun c => h ((hb _).mpr c)), if_neg h']
      exact ih

/-- A program whose nested SDFG declares a temporary nobody uses. -/
def wasteful : Sdfg :=
  .mk ⟨[("a", ⟨800, "CPU_Heap", false, false⟩)], ["a"], []⟩
    [.mk ⟨[("a", ⟨800, "CPU_Heap", false, false⟩), ("tmp", ⟨4000, "GPU_Global", true, true⟩)], ["a"], []⟩ []]

/-- C113 (not so): all memory of the program shows. Memory that only unused temporaries of nested SDFGs take does not. -/
theorem C113_hidden_violated :
    (analyse wasteful "GPU_Global").unreferenced = 4000 ∧ (analyse wasteful "GPU_Global").pooled = 4000 ∧
    report ["CPU_Heap", "GPU_Global"] (analyse wasteful) true =
      [⟨"CPU_Heap", 800, 0, 0, 800, [⟨"a", 800, true, false, false, true⟩]⟩] := by
  refine ⟨?_, ?_, ?_⟩ <;> simp [analyse, wasteful, Sdfg.own, Sdfg.nested, levels, visit, Allocs.upd, isRef, report]

/-- A program that reads `n` only in the condition of a branch. -/
def branching : Sdfg := .mk ⟨[("n", ⟨4, "Register", false, false⟩)], [], ["n"]⟩ []

/-- C113 (not so): memory reported as unreferenced is read nowhere. A container read only by the condition of a branch or loop
counts as unreferenced. -/
theorem C113_condition_violated :
    "n" ∈ branching.own.edgeReads ∧ (analyse branching "Register").unreferenced = 4 ∧
    (analyse branching "Register").referenced = 0 := by
  refine ⟨?_, ?_, ?_⟩ <;> simp [analyse, branching, Sdfg.own, Sdfg.nested, visit, Allocs.upd, isRef]

/-! ### Timings -/

theorem sumBytes_some (es : List (Option Memlet)) (h : none ∉ es) : sumBytes es = some (es.map edgeBytes).sum := by
  induction es with
  | nil => rfl
  | cons e es ih =>
    cases e with
    | none => simp at h
    | some m =>
      rw [sumBytes, ih (fun c => h (List.mem_cons_of_mem _ c))]
      simp [edgeBytes]

theorem sumBytes_none (es : List (Option Memlet)) (h : none ∈ es) : sumBytes es = none := by
  induction es with
  | nil => simp at h
  | cons e es ih =>
    cases e with
    | none => rfl
    | some m =>
      rw [sumBytes, ih (by simpa using h)]
      rfl

theorem moved_some (m : MapNode) (h : none ∉ m.reads ∧ none ∉ m.writes) : moved m = some (mapBytes m) := by
  unfold moved
  rw [sumBytes_some _ h.1, sumBytes_some _ h.2]
  rfl

theorem timingLoop_ok (bw : ℚ) (ms : List MapNode) (result : List (String × ℚ))
    (h : ∀ m ∈ ms, none ∉ m.reads ∧ none ∉ m.writes) :
    ∃ out, timingLoop bw ms result = some out ∧ ∀ k,
      (dictGet out k = none ↔ dictGet result k = none ∧ ∀ m ∈ ms, m.label ≠ k) ∧
      ∀ t, dictGet out k = some t →
        (dictGet result k = some t ∨ ∃ m ∈ ms, m.label = k ∧ t = inMicroseconds bw (mapBytes m)) ∧
        (∀ u, dictGet result k = some u → u ≤ t) ∧
        ∀ m ∈ ms, m.label = k → inMicroseconds bw (mapBytes m) ≤ t := by
  induction ms generalizing result with
  | nil =>
    refine ⟨result, rfl, fun k => ⟨by simp, fun t ht => ⟨.inl ht, ?_, by simp⟩⟩⟩
    intro u hu
    rw [hu] at ht
    injection ht with ht
    exact le_of_eq ht
  | cons m ms ih =>
    have hm := moved_some m (h m List.mem_cons_self)
    obtain ⟨out, ho, hk⟩ := ih (dictSet result m.label (match dictGet result m.label with
      | some old => max old (inMicroseconds bw (mapBytes m))
      | none => inMicroseconds bw (mapBytes m))) (fun x hx => h x (List.mem_cons_of_mem _ hx))
    refine ⟨out, ?_, ?_⟩
    · rw [timingLoop, hm]
      exact ho
    · intro k
      obtain ⟨h1, h2⟩ := hk k
      rw [StencilFactory.get_dictSet] at h1 h2
      by_cases e : m.label = k
      · subst e
        simp only [if_true] at h1 h2
        refine ⟨?_, ?_⟩
        · rw [h1]; simp
        · intro t ht
          obtain ⟨a1, a2, a3⟩ := h2 t ht
          cases hd : dictGet result m.label with
          | none =>
            rw [hd] at a1 a2
            have a2' := a2 _ rfl
            refine ⟨?_, by simp, ?_⟩
            · rcases a1 with a1 | ⟨x, hx, hl, ht⟩
              · injection a1 with a1
                exact .inr ⟨m, List.mem_cons_self, rfl, a1.symm⟩
              · exact .inr ⟨x, List.mem_cons_of_mem _ hx, hl, ht⟩
            · intro x hx hl
              rcases List.mem_cons.mp hx with e | hx
              · subst e; exact a2'
              · exact a3 x hx hl
          | some old =>
            rw [hd] at a1 a2
            have a2' := a2 _ rfl
            refine ⟨?_, ?_, ?_⟩
            · rcases a1 with a1 | ⟨x, hx, hl, ht⟩
              · injection a1 with a1
                rcases max_choice old (inMicroseconds bw (mapBytes m)) with c | c
                · left; exact congrArg some (c.symm.trans a1)
                · right; exact ⟨m, List.mem_cons_self, rfl, a1.symm.trans c⟩
              · exact .inr ⟨x, List.mem_cons_of_mem _ hx, hl, ht⟩
            · intro u hu
              injection hu with hu
              subst hu
              exact le_trans (le_max_left _ _) a2'
            · intro x hx hl
              rcases List.mem_cons.mp hx with e | hx
              · subst e; exact le_trans (le_max_right _ _) a2'
              · exact a3 x hx hl
      · have e' : k ≠ m.label := fun c => e c.symm
        simp only [e, e', if_false] at h1 h2
        refine ⟨?_, ?_⟩
        · rw [h1]; simp [e]
        · intro t ht
          obtain ⟨a1, a2, a3⟩ := h2 t ht
          refine ⟨?_, a2, ?_⟩
          · rcases a1 with a1 | ⟨x, hx, hl, ht⟩
            · exact .inl a1
            · exact .inr ⟨x, List.mem_cons_of_mem _ hx, hl, ht⟩
          · intro x hx hl
            rcases List.mem_cons.mp hx with c | hx
            · subst c; exact absurd hl e
            · exact a3 x hx hl

/-- C113: when every edge at the maps that are in no other map carries data, the timings name exactly the labels of those maps, and
the time of a label is the largest, over the maps with the label, of the bytes the map reads and writes over the bandwidth, in
microseconds: it is the time of one of them and no smaller than that of any. -/
theorem C113_timing (bw : ℚ) (maps : List MapNode)
    (h : ∀ m ∈ maps, m.inside = false → none ∉ m.reads ∧ none ∉ m.writes) :
    ∃ out, timings bw maps = some out ∧ ∀ k,
      (dictGet out k = none ↔ ∀ m ∈ maps, m.inside = false → m.label ≠ k) ∧
      ∀ t, dictGet out k = some t →
        (∃ m ∈ maps, m.inside = false ∧ m.label = k ∧ t = (mapBytes m : ℚ) / bw * 1000000) ∧
        ∀ m ∈ maps, m.inside = false → m.label = k → (mapBytes m : ℚ) / bw * 1000000 ≤ t := by
  have e6 : ∀ m : MapNode, inMicroseconds bw (mapBytes m) = (mapBytes m : ℚ) / bw * 1000000 := by
    intro m; unfold inMicroseconds; norm_num
  obtain ⟨out, ho, hk⟩ := timingLoop_ok bw (maps.filter fun m => !m.inside) [] (by
    intro m hm
    rw [List.mem_filter] at hm
    exact h m hm.1 (by simpa using hm.2))
  refine ⟨out, ho, ?_⟩
  intro k
  obtain ⟨h1, h2⟩ := hk k
  refine ⟨?_, ?_⟩
  · rw [h1]
    simp [dictGet]
  · intro t ht
    obtain ⟨a1, _, a3⟩ := h2 t ht
    refine ⟨?_, ?_⟩
    · rcases a1 with a1 | ⟨m, hm, hl, hv⟩
      · simp [dictGet] at a1
      · rw [List.mem_filter] at hm
        exact ⟨m, hm.1, by simpa using hm.2, hl, by rw [hv, e6]⟩
    · intro m hm hi hl
      rw [← e6]
      exact a3 m (List.mem_filter.mpr ⟨hm, by simpa using hi⟩) hl

/-- C113: the timings fail when some edge at a map in no other map carries no data, as for a map that reads nothing. -/
theorem C113_nothing_read (bw : ℚ) (maps : List MapNode) (m : MapNode) (hm : m ∈ maps) (hi : m.inside = false)
    (h : none ∈ m.reads ∨ none ∈ m.writes) : timings bw maps = none := by
  have hn : moved m = none := by
    unfold moved
    rcases h with h | h
    · rw [sumBytes_none _ h]; rfl
    · rw [sumBytes_none _ h]
      cases sumBytes m.reads <;> rfl
  unfold timings
  have hm' : m ∈ maps.filter fun m => !m.inside := List.mem_filter.mpr ⟨hm, by simpa using hi⟩
  generalize maps.filter (fun m => !m.inside) = ms at hm'
  generalize ([] : List (String × ℚ)) = r
  induction ms generalizing r with
  | nil => simp at hm'
  | cons x xs ih =>
    rw [timingLoop]
    rcases List.mem_cons.mp hm' with e | hx
    · subst e; rw [hn]; rfl
    · cases hx' : moved x with
      | none => rfl
      | some b => exact ih hx _

/-- C113: a bandwidth given in GB/s counts 2³⁰ bytes to the GB. -/
theorem C113_given (g : ℚ) (n b : Nat) (dt : ℚ) : bandwidth (some g) n b dt = g * 2 ^ 30 := by
  unfold bandwidth givenBandwidth
  norm_num
  ring

/-- C113 (not so): with the bandwidth that is measured, the time of the measured kernel is the time it took. It is a quarter of it:
the bandwidth is of bits, of the array written alone. -/
theorem C113_measured_violated (n b : Nat) (dt : ℚ) (hn : 0 < n) (hb : 0 < b) (hdt : 0 < dt) :
    timings (bandwidth none n b dt) [copyKernel n b] = some [("copy", dt / 4 * 1000000)] := by
  have hn' : (n : ℚ) ≠ 0 := by exact_mod_cast hn.ne'
  have hb' : (b : ℚ) ≠ 0 := by exact_mod_cast hb.ne'
  have hd' : dt ≠ 0 := ne_of_gt hdt
  have e : inMicroseconds (bandwidth none n b dt) (n * b + 0 + (n * b + 0)) = dt / 4 * 1000000 := by
    unfold inMicroseconds bandwidth measuredBandwidth
    push_cast
    field_simp
    ring
  rw [← e]
  rfl

/-- C113 (not so): the label printed with the bandwidth says where it comes from. It says the opposite. -/
theorem C113_label_violated (g : ℚ) (h : g ≠ 0) :
    bandwidthLabel none = "Given hardware bandwidth" ∧ bandwidthLabel (some g) = "Hardware bandwidth computed" := by
  refine ⟨rfl, ?_⟩
  unfold bandwidthLabel
  simp [h]

/-- C113: on the command line, a bandwidth is measured exactly when none, or zero, is given. -/
theorem C113_command (o : ℚ) : (commandBandwidth o = none ↔ o = 0) ∧ (o ≠ 0 → commandBandwidth o = some o) := by
  unfold commandBandwidth
  by_cases h : o = 0 <;> simp [h]

/-! ### Instances -/

/-- A program with two levels: the nested SDFG is given `a` and declares two temporaries. -/
example : analyse (.mk ⟨[("a", ⟨800, "H", false, false⟩), ("b", ⟨80, "H", true, true⟩)], ["a"], []⟩
    [.mk ⟨[("a", ⟨800, "H", false, false⟩), ("t", ⟨8, "H", true, true⟩), ("u", ⟨4, "R", true, false⟩)], ["a", "t"], []⟩ []]) "H" =
    { referenced := 808, unreferenced := 80, pooled := 88, topLevel := 880,
      details := [⟨"a", 800, true, false, false, true⟩, ⟨"b", 80, false, true, true, true⟩, ⟨"t", 8, true, true, true, false⟩] } := by
  simp [analyse, Sdfg.own, Sdfg.nested, levels, visit, Allocs.upd, isRef]

/-- `C113_shared` with a nested SDFG that is given `a` and one that is not. -/
example (s : String) :
    analyse (.mk ⟨[("a", ⟨800, "H", false, false⟩)], ["a"], []⟩ [.mk ⟨[("a", ⟨800, "H", false, false⟩)], ["a"], []⟩ []]) s =
    analyse (.mk ⟨[("a", ⟨800, "H", false, false⟩)], ["a"], []⟩ [.mk ⟨[], ["a"], []⟩ []]) s :=
  C113_shared _ _ _ (by simp [levels]) s

/-- Two maps with one label, a third with another, one inside a map: `C113_timing` applies. -/
example : ∃ out, timings 1000 [⟨"m", false, [some ⟨10, 8⟩], [some ⟨5, 8⟩]⟩, ⟨"m", false, [some ⟨100, 8⟩], []⟩,
      ⟨"n", false, [], [some ⟨1, 4⟩]⟩, ⟨"in", true, [none], []⟩] = some out ∧ dictGet out "in" = none ∧
    dictGet out "m" ≠ none := by
  obtain ⟨out, h, hk⟩ := C113_timing 1000 [⟨"m", false, [some ⟨10, 8⟩], [some ⟨5, 8⟩]⟩, ⟨"m", false, [some ⟨100, 8⟩], []⟩,
      ⟨"n", false, [], [some ⟨1, 4⟩]⟩, ⟨"in", true, [none], []⟩] (by simp)
  exact ⟨out, h, (hk "in").1.mpr (by simp), fun c => by have := (hk "m").1.mp c; simp at this⟩

end NDSL.Memory
