import Verif.Spec.FieldBundle
import Verif.Props.StateTransfer

/-! C39: views of field bundles. C68: the registry of bundle types. -/
namespace NDSL.Bundle

structure Agrees (w : World) (past : List Op) : Prop where
  len : w.bundles.length = count past
  store : ∀ b : Nat, (w.bundles[b]?).map (fun x => (x.storage, x.length)) = storageOf past b
  idx : ∀ (b : Nat) (name : String), (w.bundles[b]?).bind (fun x => dictGet x.indexer name) = registered past b name
  views : ∀ name, dictGet w.views name = firstAccess past name

theorem getView_eq {w : World} {past : List Op} (h : Agrees w past) (b : Nat) (name : String) :
    (getView w b name).2 = (match registered past b name with
      | none => .ok none
      | some _ =>
        match firstAccess past name with
        | some v => .ok (some v)
        | none =>
          match ownView past b name with
          | some v => .ok (some v)
          | none => .error .indexError) ∧
    (getView w b name).1.bundles = w.bundles ∧
    (∀ n, dictGet (getView w b name).1.views n = firstAccess (.get b name :: past) n) := by
  have h1 := h.store b
  have h2 := h.idx b name
  have h3 := h.views
  unfold getView
  cases hb : w.bundles[b]? with
  | none =>
    rw [hb] at h1 h2
    simp only [Option.map_none, Option.bind_none] at h1 h2
    rw [← h2]
    refine ⟨rfl, rfl, fun n => ?_⟩
    simp only [firstAccess]
    rw [h3 n]
    cases firstAccess past n with
    | some v => rfl
    | none =>
      by_cases hn : name = n
      · subst hn; simp [ownView, ← h1]
      · simp [hn]
  | some bd =>
    rw [hb] at h1 h2
    simp only [Option.map_some, Option.bind_some] at h1 h2
    cases hi : dictGet bd.indexer name with
    | none =>
      rw [hi] at h2
      rw [← h2]
      simp only [hi]
      refine ⟨trivial, trivial, fun n => ?_⟩
      simp only [firstAccess]
      rw [h3 n]
      cases firstAccess past n with
      | some v => rfl
      | none =>
        by_cases hn : name = n
        · subst hn; simp [ownView, ← h1, ← h2]
        · simp [hn]
    | some i =>
      rw [hi] at h2
      rw [← h2]
      simp only [hi]
      cases hv : dictGet w.views name with
      | some v =>
        have hv' := h3 name
        rw [hv] at hv'
        rw [← hv']
        simp only
        refine ⟨trivial, trivial, fun n => ?_⟩
        simp only [firstAccess]
        rw [h3 n]
        cases hf : firstAccess past n with
        | some v => rfl
        | none =>
          by_cases hn : name = n
          · subst hn; rw [hf] at hv'; cases hv'
          · simp [hn]
      | none =>
        have hv' := h3 name
        rw [hv] at hv'
        rw [← hv']
        simp only
        have hown : ownView past b name = (wrapIndex bd.length i).map fun j => ⟨bd.storage, j⟩ := by
          simp only [ownView, ← h1, ← h2, wrapIndex]
          by_cases p1 : 0 ≤ i
          · by_cases p2 : i < (bd.length : Int)
            · simp [p1, p2]
            · rw [if_neg (by omega), if_neg (by omega), if_pos p1, if_neg p2]; rfl
          · by_cases p2 : -(bd.length : Int) ≤ i
            · have : i < 0 ∧ 0 ≤ (bd.length : Int) + i := by omega
              rw [if_neg (by omega), if_pos this, if_neg p1, if_pos p2, Option.map_some, Int.add_comm]
            · have : ¬ 0 ≤ (bd.length : Int) + i := by omega
              simp [p1, p2, this]
        rw [hown]
        cases hw : wrapIndex bd.length i with
        | none =>
          simp only [Option.map_none]
          refine ⟨trivial, trivial, fun n => ?_⟩
          simp only [firstAccess]
          rw [h3 n]
          cases hf : firstAccess past n with
          | some v => rfl
          | none =>
            by_cases hn : name = n
            · subst hn; simp [hown, hw]
            · simp [hn]
        | some j =>
          simp only [Option.map_some]
          refine ⟨trivial, trivial, fun n => ?_⟩
          simp only [firstAccess]
          rw [dictGet_set, h3 n]
          by_cases hn : n = name
          · subst hn
            rw [← hv']
            simp [hown, hw]
          · cases hf : firstAccess past n with
            | some v => simp [hn]
            | none =>
              have : name ≠ n := fun e => hn e.symm
              simp [hn, this]

theorem run_reverse_cons (o : Op) (past : List Op) : run (o :: past).reverse = step (run past.reverse) o := by
  simp [run, List.foldl_append]

theorem agrees (past : List Op) : Agrees (run past.reverse) past := by
  induction past with
  | nil => exact ⟨rfl, fun _ => rfl, fun _ _ => rfl, fun _ => rfl⟩
  | cons o past ih =>
    rw [run_reverse_cons]
    generalize run past.reverse = w at ih
    cases o with
    | create s n m =>
      have hget : ∀ b : Nat, (w.bundles ++ [(⟨s, n, m⟩ : Bundle)])[b]? =
          if b = count past then some ⟨s, n, m⟩ else w.bundles[b]? := by
        intro b
        rw [← ih.len]
        by_cases hb : b = w.bundles.length
        · subst hb; simp
        · rw [if_neg hb]
          by_cases hlt : b < w.bundles.length
          · rw [List.getElem?_append_left hlt]
          · rw [List.getElem?_eq_none (by simp; omega), List.getElem?_eq_none (by omega)]
      refine ⟨?_, ?_, ?_, ih.views⟩
      · simp [step, count, ih.len]
      · intro b
        simp only [step, storageOf, hget]
        split
        · rfl
        · exact ih.store b
      · intro b name
        simp only [step, registered, hget]
        split
        · rfl
        · exact ih.idx b name
    | map b' i name' =>
      simp only [step]
      cases hb : w.bundles[b']? with
      | none =>
        have hlen : ¬ b' < count past := by
          rw [← ih.len]
          intro hh
          rw [List.getElem?_eq_getElem hh] at hb
          cases hb
        refine ⟨ih.len, ih.store, ?_, ih.views⟩
        intro b name
        simp only [registered]
        rw [if_neg]
        · exact ih.idx b name
        · rintro ⟨rfl, -, h⟩; exact hlen h
      | some bd =>
        have hlen : b' < w.bundles.length := by
          by_contra hh
          rw [List.getElem?_eq_none (by omega)] at hb
          cases hb
        have hget : ∀ b : Nat, (w.bundles.set b' (setIndexer bd name' i))[b]? =
            if b' = b then some (setIndexer bd name' i) else w.bundles[b]? := by
          intro b
          rw [List.getElem?_set]
          by_cases h : b' = b
          · subst h; simp [hlen]
          · simp [h]
        refine ⟨?_, ?_, ?_, ih.views⟩
        · simp [count, ih.len]
        · intro b
          simp only [storageOf, hget]
          have := ih.store b
          by_cases h : b' = b
          · subst h
            rw [hb] at this
            simpa [setIndexer] using this
          · simpa [h] using this
        · intro b name
          simp only [registered, hget]
          have := ih.idx b name
          by_cases h : b' = b
          · subst h
            rw [hb] at this
            rw [if_pos rfl]
            simp only [Option.bind_some, setIndexer, dictGet_set] at this ⊢
            by_cases hn : name' = name
            · subst hn
              simp [← ih.len, hlen]
            · have hn' : name ≠ name' := fun e => hn e.symm
              simp [hn, hn', this]
          · simp [h, this]
    | get b' name' =>
      obtain ⟨-, h2, h3⟩ := getView_eq ih b' name'
      simp only [step]
      refine ⟨?_, ?_, ?_, h3⟩
      · rw [h2]; exact ih.len
      · intro b; rw [h2]; exact ih.store b
      · intro b name; rw [h2]; exact ih.idx b name

/-- C39, what the code does after any history: names the bundle has no index for give `None`; any other name
gives the view of the first access of that name in the program, whichever bundle made it, and only if there was
none the bundle's own data at the registered index (raising if that index does not exist). -/
theorem C39_first_access_partial (h : List Op) (b : Nat) (name : String) :
    (getView (run h) b name).2 = match registered h.reverse b name with
      | none => .ok none
      | some _ =>
        match firstAccess h.reverse name with
        | some v => .ok (some v)
        | none =>
          match ownView h.reverse b name with
          | some v => .ok (some v)
          | none => .error .indexError := by
  have := agrees h.reverse
  rw [List.reverse_reverse] at this
  exact (getView_eq this b name).1

theorem registered_count {past : List Op} {b : Nat} {name : String} (h : registered past b name ≠ none) :
    b < count past := by
  induction past with
  | nil => exact absurd rfl h
  | cons o past ih =>
    cases o with
    | create s n m =>
      simp only [registered] at h
      simp only [count]
      split at h
      · omega
      · have := ih h; omega
    | map b' i n' =>
      simp only [registered] at h
      simp only [count]
      split at h
      · rename_i hc; exact hc.2.2
      · exact ih h
    | get b' n' => simp only [registered] at h; simp only [count]; exact ih h

theorem storage_later {p q : List Op} {b : Nat} (h : b < count p) : storageOf (q ++ p) b = storageOf p b ∧
    count p ≤ count (q ++ p) := by
  induction q with
  | nil => exact ⟨rfl, Nat.le_refl _⟩
  | cons o q ih =>
    cases o with
    | create s n m =>
      simp only [List.cons_append, storageOf, count]
      rw [if_neg (by omega)]
      exact ⟨ih.1, by omega⟩
    | map b' i n' => exact ih
    | get b' n' => exact ih

theorem firstAccess_some {past : List Op} {name : String} {v : View} (h : firstAccess past name = some v) :
    ∃ q b p, past = q ++ .get b name :: p ∧ ownView p b name = some v := by
  induction past with
  | nil => cases h
  | cons o past ih =>
    cases o with
    | create s n m =>
      obtain ⟨q, b, p, rfl, hv⟩ := ih h
      exact ⟨_ :: q, b, p, rfl, hv⟩
    | map b' i n' =>
      obtain ⟨q, b, p, rfl, hv⟩ := ih h
      exact ⟨_ :: q, b, p, rfl, hv⟩
    | get b' n' =>
      simp only [firstAccess] at h
      split at h
      · rename_i v' hv'
        cases h
        obtain ⟨q, b, p, rfl, hv⟩ := ih hv'
        exact ⟨_ :: q, b, p, rfl, hv⟩
      · split at h
        · rename_i hn
          subst hn
          exact ⟨[], b', past, rfl, h⟩
        · cases h

/-- C39 as claimed, when the name was accessed before on this bundle only, with the index it has now: the access
shows the bundle's own storage at the index registered for the name. -/
theorem C39_own_view_partial (h : List Op) (b : Nat) (name : String) (v : View)
    (hown : ownView h.reverse b name = some v)
    (hprev : ∀ (p q : List Op) (b' : Nat), h = p ++ .get b' name :: q →
      b' = b ∧ registered p.reverse b name = registered h.reverse b name) :
    (getView (run h) b name).2 = .ok (some v) := by
  rw [C39_first_access_partial]
  cases hr : registered h.reverse b name with
  | none =>
    unfold ownView at hown
    rw [hr] at hown
    split at hown
    · rename_i h2; cases h2
    · cases hown
  | some i =>
    simp only
    cases hf : firstAccess h.reverse name with
    | none => simp only [hown]
    | some v' =>
      simp only
      obtain ⟨q, b', p, hp, hv'⟩ := firstAccess_some hf
      have hh : h = p.reverse ++ .get b' name :: q.reverse := by
        have := congrArg List.reverse hp
        simpa using this
      obtain ⟨rfl, hreg⟩ := hprev _ _ _ hh
      rw [List.reverse_reverse] at hreg
      have hlt : b' < count p := registered_count (name := name) (by rw [hreg, hr]; simp)
      have hst : storageOf h.reverse b' = storageOf p b' := by
        rw [hp]
        have := (storage_later (q := q ++ [.get b' name]) hlt).1
        simpa using this
      have : ownView p b' name = ownView h.reverse b' name := by
        unfold ownView
        rw [hreg, hst]
      rw [this, hown] at hv'
      cases hv'
      rfl

/-- C68. Registering a type succeeds exactly for names not registered before; afterwards `T` gives the sizes it was
registered with, for good: no later registration changes it. -/
theorem C68_register_once (regs : List (String × List Int)) (name : String) (markup : Bool) :
    typeOf (regs.foldl (fun r e => (register r e.1 e.2).1) []) name markup =
      match regs.find? fun e => e.1 == name with
      | some e => .ok (.type e.2)
      | none => if markup then .ok (.markup name) else .error .runtimeError := by
  have key : ∀ (l : List (String × List Int)) (r : List (String × List Int)),
      dictGet (l.foldl (fun r e => (register r e.1 e.2).1) r) name =
        match dictGet r name with
        | some d => some d
        | none => (l.find? fun e => e.1 == name).map (·.2) := by
    intro l
    induction l with
    | nil => intro r; simp only [List.foldl_nil, List.find?_nil, Option.map_none]; cases dictGet r name <;> rfl
    | cons e l ih =>
      intro r
      rw [List.foldl_cons, ih]
      unfold register
      cases hr : dictGet r e.1 with
      | some d =>
        simp only
        cases hn : dictGet r name with
        | some d' => rfl
        | none =>
          have : e.1 ≠ name := by rintro rfl; rw [hr] at hn; cases hn
          simp [List.find?_cons, this]
      | none =>
        simp only [dictGet_set]
        by_cases hn : name = e.1
        · subst hn
          simp [hr]
        · have hn' : e.1 ≠ name := fun h => hn h.symm
          simp [hn, List.find?_cons, hn']
  have := key regs []
  unfold typeOf
  rw [this]
  simp only [dictGet, List.find?_nil, Option.map_none]
  cases regs.find? fun e => e.1 == name with
  | none => rfl
  | some e => rfl

/-- C68. A second registration raises and leaves the registry as it was. -/
theorem C68_second_raises (r : List (String × List Int)) (name : String) (d d' : List Int)
    (h : (register r name d).2 = .ok d) :
    register (register r name d).1 name d' = ((register r name d).1, .error .runtimeError) := by
  unfold register at h ⊢
  cases hr : dictGet r name with
  | some x => rw [hr] at h; cases h
  | none =>
    have : dictGet (dictSet r name d) name = some d := by rw [dictGet_set]; simp
    simp only [this]

/-! ### Examples and violations -/

/-- two tracer bundles, storages 0 and 1; `cloud` is at index 1 of both -/
def exH : List Op :=
  [.create 0 4 [("vapor", 0), ("cloud", 1)], .create 1 4 [("vapor", 0), ("cloud", 1)], .get 0 "cloud"]

example : ownView exH.reverse 0 "cloud" = some ⟨0, 1⟩ ∧ (getView (run exH) 0 "cloud").2 = .ok (some ⟨0, 1⟩) ∧
    (getView (run exH) 1 "vapor").2 = .ok (some ⟨1, 0⟩) ∧ (getView (run exH) 0 "ice").2 = .ok none := by decide

/-- C39 is false of the code: once one bundle's tracer has been accessed, the same name on another bundle shows
the first bundle's data. -/
theorem C39_shared_views_violated :
    ownView exH.reverse 1 "cloud" = some ⟨1, 1⟩ ∧ (getView (run exH) 1 "cloud").2 = .ok (some ⟨0, 1⟩) := by decide

/-- ... and a name mapped to another index after an access keeps showing the old index. -/
theorem C39_remap_violated :
    ownView (exH ++ [Op.map 0 3 "cloud"]).reverse 0 "cloud" = some ⟨0, 3⟩ ∧
    (getView (run (exH ++ [Op.map 0 3 "cloud"])) 0 "cloud").2 = .ok (some ⟨0, 1⟩) := by decide

end NDSL.Bundle
