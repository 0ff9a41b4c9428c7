import Verif.Spec.Snapshots
import Verif.Props.StateTransfer
/-
C57: recorded snapshots are independent and ordered.
-/
namespace NDSL.Snap

theorem keys_dictSet {V : Type} (d : List (String × V)) (k : String) (v : V) (x : String) :
    x ∈ (dictSet d k v).map (·.1) ↔ x = k ∨ x ∈ d.map (·.1) := by
  induction d with
  | nil => simp [dictSet]
  | cons e d ih =>
    unfold dictSet
    split
    · rename_i h
      simp only [List.map_cons, List.mem_cons, h]
      constructor
      · rintro (h | h)
        · exact .inl h
        · exact .inr (.inr h)
      · rintro (h | h | h)
        · exact .inl h
        · exact .inl h
        · exact .inr h
    · simp only [List.map_cons, List.mem_cons, ih]
      constructor
      · rintro (h | h | h)
        · exact .inr (.inl h)
        · exact .inl h
        · exact .inr (.inr h)
      · rintro (h | h | h)
        · exact .inr (.inl h)
        · exact .inl h
        · exact .inr (.inr h)

theorem nodup_dictSet {V : Type} (d : List (String × V)) (k : String) (v : V)
    (h : (d.map (·.1)).Nodup) : ((dictSet d k v).map (·.1)).Nodup := by
  induction d with
  | nil => simp [dictSet]
  | cons e d ih =>
    rw [List.map_cons, List.nodup_cons] at h
    unfold dictSet
    split
    · rename_i hk
      rw [List.map_cons, List.nodup_cons]
      rw [← hk]
      exact h
    · rename_i hk
      rw [List.map_cons, List.nodup_cons]
      refine ⟨?_, ih h.2⟩
      rw [keys_dictSet]
      rintro (c | c)
      · exact hk c
      · exact h.1 c

theorem dictGet_some_mem {V : Type} {d : List (String × V)} {k : String} {v : V}
    (h : dictGet d k = some v) : (k, v) ∈ d := by
  unfold dictGet at h
  obtain ⟨e, he, hv⟩ := Option.map_eq_some_iff.mp h
  have h1 := List.mem_of_find?_eq_some he
  have h2 := List.find?_some he
  have h3 : e.1 = k := by simpa using h2
  subst h3; subst hv
  exact h1

/-- What has been stored, against what was passed. -/
structure Stored (s : State) (p : String → List (String × Arr)) : Prop where
  names : ∀ v, dictGet s.savepoints v = if p v = [] then none else some ((p v).map (·.1))
  values : ∀ v, dictGet s.arrays v = if p v = [] then none else some ((p v).map (·.2))
  nodup : (s.savepoints.map (·.1)).Nodup

theorem Stored.store {s : State} {p : String → List (String × Arr)} (h : Stored s p) (sp v : String)
    (a : Arr) : Stored (store s sp v a) (fun w => if w = v then p w ++ [(sp, a)] else p w) := by
  obtain ⟨h1, h2, h3⟩ := h
  refine ⟨?_, ?_, nodup_dictSet _ _ _ h3⟩
  · intro w
    simp only [Snap.store]
    rw [dictGet_set, h1 v]
    by_cases hw : w = v
    · subst hw
      by_cases hp : p w = []
      · simp [hp]
      · simp [hp]
    · simp only [hw, if_false]
      exact h1 w
  · intro w
    simp only [Snap.store]
    rw [dictGet_set, h2 v]
    by_cases hw : w = v
    · subst hw
      by_cases hp : p w = []
      · simp [hp]
      · simp [hp]
    · simp only [hw, if_false]
      exact h2 w

theorem Stored.call (sp : String) (kw : List (String × Nat)) : ∀ {s : State}
    {p : String → List (String × Arr)}, Stored s p →
    Stored (call s sp kw) (fun w => p w ++ ((kw.filter fun e => decide (e.1 = w)).map fun e =>
      (sp, s.heap e.2))) ∧ (call s sp kw).heap = s.heap := by
  induction kw with
  | nil => intro s p h; exact ⟨by simpa [Snap.call] using h, rfl⟩
  | cons e kw ih =>
    intro s p h
    have h1 := h.store sp e.1 (s.heap e.2)
    obtain ⟨h2, h3⟩ := ih h1
    refine ⟨?_, h3⟩
    have he : Snap.call s sp (e :: kw) = Snap.call (Snap.store s sp e.1 (s.heap e.2)) sp kw := rfl
    rw [he]
    have hf : (fun w => (if w = e.1 then p w ++ [(sp, s.heap e.2)] else p w) ++
        ((kw.filter fun e => decide (e.1 = w)).map fun x =>
          (sp, (Snap.store s sp e.1 (s.heap e.2)).heap x.2))) =
        fun w => p w ++ (((e :: kw).filter fun e => decide (e.1 = w)).map fun e =>
          (sp, s.heap e.2)) := by
      funext w
      rw [List.filter_cons]
      by_cases hw : w = e.1
      · rw [if_pos hw, if_pos (decide_eq_true hw.symm), List.map_cons, List.append_assoc]; rfl
      · rw [if_neg hw, if_neg (by simpa using fun c => hw c.symm)]; rfl
    rw [hf] at h2
    exact h2

theorem run_stored (ops : List Op) : ∀ {s : State} {p : String → List (String × Arr)}, Stored s p →
    Stored (ops.foldl step s) (fun v => p v ++ passed v s.heap ops) := by
  induction ops with
  | nil => intro s p h; simpa [passed] using h
  | cons op ops ih =>
    intro s p h
    rw [List.foldl_cons]
    cases op with
    | call sp kw =>
      obtain ⟨h1, h2⟩ := h.call sp kw
      have h3 := ih h1
      have e : step s (.call sp kw) = call s sp kw := rfl
      rw [e]
      rw [h2] at h3
      have hf : (fun v => (p v ++ ((kw.filter fun e => decide (e.1 = v)).map fun e =>
          (sp, s.heap e.2))) ++ passed v s.heap ops) =
          fun v => p v ++ passed v s.heap (.call sp kw :: ops) := by
        funext v
        rw [List.append_assoc]; rfl
      rw [hf] at h3
      exact h3
    | write addr a =>
      have h1 : Stored (step s (.write addr a)) p := ⟨h.names, h.values, h.nodup⟩
      exact ih h1

/-- **C57**: what is stored for a variable is what was passed, in order, as it was when it was
passed. -/
theorem C57_stored (heap : Nat → Arr) (ops : List Op) (v : String) :
    (dictGet (run heap ops).savepoints v).getD [] = (passed v heap ops).map (·.1) ∧
      (dictGet (run heap ops).arrays v).getD [] = (passed v heap ops).map (·.2) := by
  have h0 : Stored (init heap) (fun _ => []) :=
    ⟨fun _ => rfl, fun _ => rfl, List.nodup_nil⟩
  have h := run_stored ops h0
  have e1 := h.names v
  have e2 := h.values v
  unfold run
  rw [e1, e2]
  simp only [List.nil_append]
  have : (init heap).heap = heap := rfl
  rw [this]
  by_cases hp : passed v heap ops = []
  · rw [hp]; simp
  · simp [hp]

theorem makeDims_ok (d label : String) (l : List Arr) (hne : l ≠ []) :
    (∃ r, makeDims d label l = .ok r) ↔ Stackable l := by
  cases l with
  | nil => exact absurd rfl hne
  | cons a l =>
    unfold makeDims
    simp only
    constructor
    · rintro ⟨r, h⟩
      split at h
      · cases h
      · rename_i h0
        split at h
        · rename_i h1
          rw [List.all_eq_true] at h1
          refine ⟨a.shape, ?_, fun b hb => of_decide_eq_true (h1 b hb)⟩
          intro c
          apply h0
          rw [List.any_eq_true]
          exact ⟨a, List.mem_cons_self, decide_eq_true c⟩
        · cases h
    · rintro ⟨shape, hs, h⟩
      have h0 : ¬ ((a :: l).any fun b => decide (b.shape = [])) = true := by
        rw [List.any_eq_true]
        rintro ⟨b, hb, c⟩
        exact hs ((h b hb).symm.trans (of_decide_eq_true c))
      rw [if_neg h0, if_pos]
      · exact ⟨_, rfl⟩
      · rw [List.all_eq_true]
        intro b hb
        exact decide_eq_true ((h b hb).trans (h a List.mem_cons_self).symm)

theorem makeDims_shape {d label : String} {l : List Arr} {r : List String × Arr}
    (h : makeDims d label l = .ok r) :
    r.2.data = (l.map (·.data)).flatten ∧
      ∃ shape, (∀ a ∈ l, a.shape = shape) ∧ r.2.shape = l.length :: shape ∧
        r.1 = d :: (List.range shape.length).map (fun i => label ++ "_dim" ++ toString i) := by
  cases l with
  | nil => cases h
  | cons a l =>
    unfold makeDims at h
    simp only at h
    split at h
    · cases h
    · split at h
      · rename_i h1
        have h' := Except.ok.inj h
        subst h'
        rw [List.all_eq_true] at h1
        exact ⟨rfl, a.shape, fun b hb => of_decide_eq_true (h1 b hb), rfl, rfl⟩
      · cases h

theorem addVar_keeps {s : State} {es : List (String × List String)} : ∀ {ds ds' : List (String × Var)},
    es.foldlM (addVar s) ds = .ok ds' → ∀ k, (∀ e ∈ es, k ≠ e.1 ∧ k ≠ e.1 ++ "_savepoints") →
      dictGet ds' k = dictGet ds k := by
  induction es with
  | nil => intro ds ds' h k _; cases h; rfl
  | cons e es ih =>
    intro ds ds' h k hk
    rw [List.foldlM_cons] at h
    cases h1 : addVar s ds e with
    | error x => rw [h1] at h; cases h
    | ok d1 =>
      rw [h1] at h
      rw [ih h k (fun x hx => hk x (List.mem_cons_of_mem _ hx))]
      unfold addVar at h1
      cases hm : makeDims ("sp_" ++ e.1) e.1 ((dictGet s.arrays e.1).getD []) with
      | error x => rw [hm] at h1; cases h1
      | ok r =>
        rw [hm] at h1
        have := Except.ok.inj h1
        rw [← this]
        obtain ⟨n1, n2⟩ := hk e List.mem_cons_self
        show dictGet (dictSet (dictSet ds _ _) _ _) k = _
        rw [dictGet_set, if_neg n1, dictGet_set, if_neg n2]

theorem addVar_all {s : State} {es : List (String × List String)} (hn : (es.map (·.1)).Nodup)
    (hap : ∀ e ∈ es, ∀ e' ∈ es, e.1 ≠ e'.1 ++ "_savepoints") :
    ∀ {ds ds' : List (String × Var)}, es.foldlM (addVar s) ds = .ok ds' → ∀ e ∈ es,
      ∃ r, makeDims ("sp_" ++ e.1) e.1 ((dictGet s.arrays e.1).getD []) = .ok r ∧
        dictGet ds' (e.1 ++ "_savepoints") = some (.names ["sp_" ++ e.1] e.2) ∧
        dictGet ds' e.1 = some (.data r.1 r.2) := by
  induction es with
  | nil => intro ds ds' _ e he; exact absurd he (List.not_mem_nil)
  | cons e0 es ih =>
    intro ds ds' h e he
    rw [List.map_cons, List.nodup_cons] at hn
    rw [List.foldlM_cons] at h
    cases h1 : addVar s ds e0 with
    | error x => rw [h1] at h; cases h
    | ok d1 =>
      rw [h1] at h
      rw [List.mem_cons] at he
      rcases he with rfl | he
      · unfold addVar at h1
        cases hm : makeDims ("sp_" ++ e.1) e.1 ((dictGet s.arrays e.1).getD []) with
        | error x => rw [hm] at h1; cases h1
        | ok r =>
          rw [hm] at h1
          have h1' := Except.ok.inj h1
          have hself : e.1 ++ "_savepoints" ≠ e.1 := fun c =>
            hap e List.mem_cons_self e List.mem_cons_self c.symm
          have hne : ∀ x ∈ es, e.1 ≠ x.1 := by
            intro x hx c
            exact hn.1 (c ▸ List.mem_map.mpr ⟨x, hx, rfl⟩)
          refine ⟨r, rfl, ?_, ?_⟩
          · rw [addVar_keeps h]
            · rw [← h1']
              show dictGet (dictSet (dictSet ds _ _) _ _) _ = _
              rw [dictGet_set, if_neg hself, dictGet_set, if_pos rfl]
            · intro x hx
              refine ⟨fun c => hap x (List.mem_cons_of_mem _ hx) e List.mem_cons_self c.symm, ?_⟩
              intro c
              exact hne x hx (String.append_left_inj _ |>.mp c)
          · rw [addVar_keeps h]
            · rw [← h1']
              show dictGet (dictSet (dictSet ds _ _) _ _) _ = _
              rw [dictGet_set, if_pos rfl]
            · intro x hx
              exact ⟨hne x hx, hap e List.mem_cons_self x (List.mem_cons_of_mem _ hx)⟩
      · exact ih hn.2 (fun a ha b hb => hap a (List.mem_cons_of_mem _ ha) b (List.mem_cons_of_mem _ hb))
          h e he

theorem addVar_ok {s : State} {es : List (String × List String)} : ∀ (ds : List (String × Var)),
    (∃ ds', es.foldlM (addVar s) ds = .ok ds') ↔ ∀ e ∈ es,
      ∃ r, makeDims ("sp_" ++ e.1) e.1 ((dictGet s.arrays e.1).getD []) = .ok r := by
  induction es with
  | nil => intro ds; exact ⟨fun _ e he => absurd he (List.not_mem_nil), fun _ => ⟨ds, rfl⟩⟩
  | cons e es ih =>
    intro ds
    rw [List.foldlM_cons, List.forall_mem_cons]
    unfold addVar
    cases hm : makeDims ("sp_" ++ e.1) e.1 ((dictGet s.arrays e.1).getD []) with
    | error x =>
      constructor
      · rintro ⟨_, h⟩; cases h
      · rintro ⟨⟨_, h⟩, _⟩; cases h
    | ok r =>
      constructor
      · rintro ⟨ds', h⟩
        exact ⟨⟨r, rfl⟩, (ih _).mp ⟨ds', h⟩⟩
      · rintro ⟨_, h⟩
        exact (ih _).mpr h

theorem savepoints_mem (heap : Nat → Arr) (ops : List Op) (v : String) (l : List String) :
    (v, l) ∈ (run heap ops).savepoints ↔
      passed v heap ops ≠ [] ∧ l = (passed v heap ops).map (·.1) := by
  have h0 : Stored (init heap) (fun _ => []) :=
    ⟨fun _ => rfl, fun _ => rfl, List.nodup_nil⟩
  have h := run_stored ops h0
  have e1 := h.names v
  simp only [List.nil_append] at e1
  have hh : (init heap).heap = heap := rfl
  rw [hh] at e1
  have hr : ops.foldl step (init heap) = run heap ops := rfl
  rw [hr] at e1 h
  constructor
  · intro hm
    rw [dictGet_mem h.nodup hm] at e1
    by_cases hp : passed v heap ops = []
    · rw [if_pos hp] at e1; cases e1
    · rw [if_neg hp] at e1
      exact ⟨hp, Option.some.inj e1⟩
  · rintro ⟨hp, rfl⟩
    rw [if_neg hp] at e1
    exact dictGet_some_mem e1

/-- **C57**: the dataset can be made exactly when the arrays of each variable can be stacked. -/
theorem C57_dataset_exists (heap : Nat → Arr) (ops : List Op) :
    (∃ ds, dataset (run heap ops) = .ok ds) ↔
      ∀ v, passed v heap ops ≠ [] → Stackable ((passed v heap ops).map (·.2)) := by
  unfold dataset
  rw [addVar_ok]
  constructor
  · intro h v hv
    have h1 := h (v, _) ((savepoints_mem heap ops v _).mpr ⟨hv, rfl⟩)
    simp only [(C57_stored heap ops v).2] at h1
    exact (makeDims_ok _ _ _ (by simpa using hv)).mp h1
  · rintro h ⟨v, l⟩ he
    obtain ⟨hv, rfl⟩ := (savepoints_mem heap ops v l).mp he
    simp only [(C57_stored heap ops v).2]
    exact (makeDims_ok _ _ _ (by simpa using hv)).mpr (h v hv)

/-- **C57**: the dataset holds, for each variable, the savepoints and the values it was passed with,
in order, as they were when they were passed, stacked along a first axis; unless a variable is named
like the list of savepoints of another. -/
theorem C57_dataset {heap : Nat → Arr} {ops : List Op} (hap : NamesApart heap ops)
    {ds : List (String × Var)} (h : dataset (run heap ops) = .ok ds) {v : String}
    (hv : passed v heap ops ≠ []) :
    dictGet ds (v ++ "_savepoints") = some (.names ["sp_" ++ v] ((passed v heap ops).map (·.1))) ∧
    ∃ dims shape, (∀ p ∈ passed v heap ops, p.2.shape = shape) ∧
      dims = ("sp_" ++ v) :: (List.range shape.length).map (fun i => v ++ "_dim" ++ toString i) ∧
      dictGet ds v = some (.data dims ⟨(passed v heap ops).length :: shape,
        ((passed v heap ops).map fun p => p.2.data).flatten⟩) := by
  have h0 : Stored (init heap) (fun _ => []) :=
    ⟨fun _ => rfl, fun _ => rfl, List.nodup_nil⟩
  have hs := run_stored ops h0
  have hmem := (savepoints_mem heap ops v _).mpr ⟨hv, rfl⟩
  obtain ⟨r, hr, h1, h2⟩ := addVar_all hs.nodup (by
    rintro ⟨a, la⟩ ha ⟨b, lb⟩ hb
    exact hap a b ((savepoints_mem heap ops a la).mp ha).1 ((savepoints_mem heap ops b lb).mp hb).1)
    h _ hmem
  refine ⟨h1, ?_⟩
  simp only [(C57_stored heap ops v).2] at hr
  obtain ⟨hd, shape, hsh, hshape, hdims⟩ := makeDims_shape hr
  refine ⟨r.1, shape, ?_, hdims, ?_⟩
  · intro p hp
    exact hsh p.2 (List.mem_map.mpr ⟨p, hp, rfl⟩)
  · rw [h2]
    have : r.2 = ⟨(passed v heap ops).length :: shape,
        ((passed v heap ops).map fun p => p.2.data).flatten⟩ := by
      obtain ⟨d, ⟨sh, da⟩⟩ := r
      simp only at hd hshape ⊢
      rw [hd, hshape, List.length_map, List.map_map]
      rfl
    rw [this]

/-! ### Examples -/

/-- One array, passed twice with a change in between, and after the last call. -/
def opsEx : List Op :=
  [.call "a" [("u", 0), ("v", 1)], .write 0 ⟨[2], [5, 6]⟩, .call "b" [("u", 0)],
    .write 0 ⟨[2], [0, 0]⟩]

def heapEx : Nat → Arr := fun n => ⟨[2], [(n : Int), 7]⟩

example : (dataset (run heapEx opsEx)).toOption = some
    [("u_savepoints", .names ["sp_u"] ["a", "b"]), ("u", .data ["sp_u", "u_dim0"] ⟨[2, 2], [0, 7, 5, 6]⟩),
      ("v_savepoints", .names ["sp_v"] ["a"]), ("v", .data ["sp_v", "v_dim0"] ⟨[1, 2], [1, 7]⟩)] := by
  decide +kernel

theorem passed_opsEx (v : String) : passed v heapEx opsEx ≠ [] → v = "u" ∨ v = "v" := by
  intro h
  by_cases h1 : "u" = v
  · exact .inl h1.symm
  · by_cases h2 : "v" = v
    · exact .inr h2.symm
    · exact absurd (by simp [passed, opsEx, h1, h2]) h

/-- The names are apart in the example. -/
example : NamesApart heapEx opsEx := by
  intro v w hv hw
  rcases passed_opsEx v hv with rfl | rfl <;> rcases passed_opsEx w hw with rfl | rfl <;> decide

/-- **C57 fails** if a variable is named like the list of savepoints of another: the list is lost. -/
theorem C57_names_violated :
    (dataset (run heapEx [.call "a" [("u", 0), ("u_savepoints", 1)]])).toOption.bind
      (fun ds => dictGet ds "u_savepoints") =
        some (.data ["sp_u_savepoints", "u_savepoints_dim0"] ⟨[1, 2], [1, 7]⟩) := by
  decide +kernel

end NDSL.Snap
