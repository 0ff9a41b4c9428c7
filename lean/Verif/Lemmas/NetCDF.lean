import Verif.Spec.NetCDF
import Verif.Props.Snapshots
/-
Lemmas about the chunked writer.
-/
namespace NDSL.NetCDF

variable {T C : Type}

/-! ### File names -/

theorem digits_isDigit {n : Nat} {x : Char} (h : x ∈ Nat.toDigits 10 n) : x.isDigit = true :=
  Nat.isDigit_of_mem_toDigits (by decide) (by decide) h

theorem pad4_isDigit {n : Nat} {x : Char} (h : x ∈ pad4 n) : x.isDigit = true := by
  unfold pad4 at h
  rw [List.mem_append] at h
  rcases h with h | h
  · rw [List.eq_of_mem_replicate h]; rfl
  · exact digits_isDigit h

theorem pad4_value (n : Nat) : Nat.ofDigitChars 10 (pad4 n) 0 = n := by
  unfold pad4
  rw [Nat.ofDigitChars_append, Nat.ofDigitChars_replicate_zero, Nat.mul_zero,
    Nat.ofDigitChars_ten_toDigits]

theorem digits_value (n : Nat) : Nat.ofDigitChars 10 (Nat.toDigits 10 n) 0 = n :=
  Nat.ofDigitChars_ten_toDigits

/-- Digits before something that is not one determine the digits and the rest. -/
theorem split_digits {a a' b b' : List Char} {x : Char} (hx : x.isDigit = false)
    (ha : ∀ c ∈ a, c.isDigit = true) (ha' : ∀ c ∈ a', c.isDigit = true)
    (h : a ++ x :: b = a' ++ x :: b') : a = a' ∧ b = b' := by
  induction a generalizing a' with
  | nil =>
    cases a' with
    | nil => exact ⟨rfl, (List.cons.inj h).2⟩
    | cons y a' =>
      rw [List.nil_append, List.cons_append, List.cons.injEq] at h
      have := ha' y List.mem_cons_self
      rw [← h.1, hx] at this
      cases this
  | cons y a ih =>
    cases a' with
    | nil =>
      rw [List.nil_append, List.cons_append, List.cons.injEq] at h
      have := ha y List.mem_cons_self
      rw [h.1, hx] at this
      cases this
    | cons z a' =>
      rw [List.cons_append, List.cons_append, List.cons.injEq] at h
      obtain ⟨e1, e2⟩ := ih (fun c hc => ha c (List.mem_cons_of_mem _ hc))
        (fun c hc => ha' c (List.mem_cons_of_mem _ hc)) h.2
      exact ⟨by rw [h.1, e1], e2⟩

theorem fileName_inj {k t k' t' : Nat} (h : fileName k t = fileName k' t') : k = k' ∧ t = t' := by
  unfold fileName at h
  simp only [List.append_assoc] at h
  have h1 := List.append_cancel_left h
  simp only [List.cons_append, List.nil_append] at h1
  obtain ⟨e1, e2⟩ := split_digits (by decide) (fun c hc => pad4_isDigit hc)
    (fun c hc => pad4_isDigit hc) h1
  simp only [List.cons.injEq, true_and] at e2
  obtain ⟨e3, _⟩ := split_digits (by decide) (fun c hc => digits_isDigit hc)
    (fun c hc => digits_isDigit hc) e2
  exact ⟨by rw [← pad4_value k, ← pad4_value k', e1], by rw [← digits_value t, ← digits_value t', e3]⟩

/-! ### One tile -/

/-- What happens on one tile. -/
inductive LOp (T C : Type) where
  | store (s : St T C)
  | cleanup

def lstep (c tile : Nat) (x : Monitor T C × FS T C) : LOp T C → Except Err (Monitor T C × FS T C)
  | .store s => store c tile x.1 x.2 s
  | .cleanup => .ok (cleanup c tile x.1 x.2)

def lstored : List (LOp T C) → List (St T C)
  | [] => []
  | .store s :: ops => s :: lstored ops
  | .cleanup :: ops => lstored ops

/-- What a chunk being collected holds. -/
def ChunkHolds (ch : List (String × Chunk C)) (p : List (St T C)) : Prop :=
  ∀ s0 rest, p = s0 :: rest → ∀ v,
    (dictGet s0.fields v = none → dictGet ch v = none) ∧
    ∀ q, dictGet s0.fields v = some q → ∃ data, dictGet ch v = some ⟨q.dims, data⟩ ∧
      data.map some = p.map fun s => (dictGet s.fields v).map (·.content)

/-- The names of the fields are the same. -/
def SameFields (s s' : St T C) : Prop := ∀ v, dictGet s.fields v = none ↔ dictGet s'.fields v = none

theorem appendAll {c : Nat} {fields : List (String × Field C)} (hn : (fields.map (·.1)).Nodup) :
    ∀ {ch ch' : List (String × Chunk C)}, fields.foldlM (appendVar c) ch = .ok ch' → ∀ v,
      (dictGet fields v = none → dictGet ch' v = dictGet ch v) ∧
      ∀ q, dictGet fields v = some q → ∃ k, dictGet ch v = some k ∧ q.dims.Perm k.dims ∧
        dictGet ch' v = some ⟨k.dims, k.data ++ [q.content]⟩ := by
  induction fields with
  | nil =>
    intro ch ch' h v
    cases h
    exact ⟨fun _ => rfl, fun q hq => by cases hq⟩
  | cons e fields ih =>
    intro ch ch' h v
    rw [List.map_cons, List.nodup_cons] at hn
    rw [List.foldlM_cons] at h
    have hg : dictGet (e :: fields) v = if e.1 = v then some e.2 else dictGet fields v := by
      unfold dictGet
      rw [List.find?_cons]
      by_cases h : e.1 = v
      · simp [h]
      · have hb : (e.1 == v) = false := by simpa using h
        rw [hb, if_neg h]
    have hnone : dictGet fields e.1 = none := by
      unfold dictGet
      rw [Option.map_eq_none_iff, List.find?_eq_none]
      intro x hx hc
      apply hn.1
      rw [List.mem_map]
      exact ⟨x, hx, by simpa using hc⟩
    cases h1 : appendVar c ch e with
    | error x => rw [h1] at h; cases h
    | ok c1 =>
      rw [h1] at h
      obtain ⟨i1, i2⟩ := ih hn.2 h v
      unfold appendVar at h1
      split at h1
      · cases h1
      · rename_i k hk
        split at h1
        · rename_i hp
          split at h1
          · have h1' := Except.ok.inj h1
            rw [← h1', dictGet_set] at i1 i2
            rw [hg]
            by_cases hv : e.1 = v
            · subst hv
              rw [if_pos rfl]
              refine ⟨fun hc => (by cases hc), ?_⟩
              intro q hq
              obtain rfl := Option.some.inj hq
              refine ⟨k, hk, List.isPerm_iff.mp hp, ?_⟩
              rw [i1 hnone, if_pos rfl]
            · have hv' : ¬ v = e.1 := fun x => hv x.symm
              rw [if_neg hv]
              rw [if_neg hv'] at i1 i2
              exact ⟨i1, i2⟩
          · cases h1
        · cases h1

theorem dictGet_mapFields (fields : List (String × Field C)) (v : String) :
    dictGet (fields.map fun e => (e.1, Chunk.mk e.2.dims [e.2.content])) v =
      (dictGet fields v).map fun q => Chunk.mk q.dims [q.content] := by
  induction fields with
  | nil => rfl
  | cons e d ih =>
    unfold dictGet at ih ⊢
    rw [List.map_cons, List.find?_cons, List.find?_cons]
    cases h : e.1 == v
    · simp only [h]; exact ih
    · simp [h]

theorem nextChunk_holds {c : Nat} {o : Option (List (String × Chunk C))} {p : List (St T C)}
    {s : St T C} {ch' : List (String × Chunk C)} (h : nextChunk c o s.fields = .ok ch')
    (hn : (s.fields.map (·.1)).Nodup) (h0 : p = [] → o = none)
    (h1 : p ≠ [] → ∃ ch, o = some ch ∧ ChunkHolds ch p)
    (hsame : ∀ s' ∈ p, SameFields s' s) : ChunkHolds ch' (p ++ [s]) := by
  cases p with
  | nil =>
    rw [h0 rfl] at h
    unfold nextChunk at h
    simp only at h
    split at h
    · cases h
    · have h' := Except.ok.inj h
      subst h'
      intro s0 rest e v
      rw [List.nil_append, List.cons.injEq] at e
      obtain ⟨rfl, rfl⟩ := e
      rw [dictGet_mapFields]
      refine ⟨fun hv => by rw [hv]; rfl, ?_⟩
      intro q hq
      rw [hq]
      exact ⟨_, rfl, by simp [hq]⟩
  | cons s1 p =>
    obtain ⟨ch, rfl, hh⟩ := h1 (by simp)
    unfold nextChunk at h
    simp only at h
    have ha := appendAll hn h
    intro s0 rest e v
    rw [List.cons_append, List.cons.injEq] at e
    obtain ⟨rfl, _⟩ := e
    obtain ⟨a1, a2⟩ := hh s1 p rfl v
    obtain ⟨b1, b2⟩ := ha v
    have hs := hsame s1 List.mem_cons_self v
    constructor
    · intro hv
      rw [b1 (hs.mp hv), a1 hv]
    · intro q hq
      obtain ⟨data, hd, hm⟩ := a2 q hq
      cases hsv : dictGet s.fields v with
      | none => rw [hs.mpr hsv] at hq; cases hq
      | some q' =>
        obtain ⟨k, hk, _, hk'⟩ := b2 q' hsv
        rw [hd] at hk
        obtain rfl := Option.some.inj hk
        refine ⟨_, hk', ?_⟩
        rw [List.map_append, List.map_append, hm]
        simp [hsv]

theorem contains_of_holds {ch : List (String × Chunk C)} {p : List (St T C)} (hne : p ≠ [])
    (h : ChunkHolds ch p) (hsame : ∀ s ∈ p, ∀ s' ∈ p, SameFields s s') :
    Contains ⟨p.map (·.time), ch⟩ p := by
  refine ⟨rfl, ?_⟩
  rintro v ⟨s, hs, hv⟩
  cases p with
  | nil => exact absurd rfl hne
  | cons s0 p =>
    obtain ⟨_, h2⟩ := h s0 p rfl v
    cases h0 : dictGet s0.fields v with
    | none => exact absurd ((hsame s0 List.mem_cons_self s hs v).mp h0) hv
    | some q =>
      obtain ⟨data, hd, hm⟩ := h2 q h0
      exact ⟨_, hd, hm⟩

/-- The files of a tile are these blocks. -/
def FilesAre (tile : Nat) (fs : FS T C) (blocks : List (List (St T C))) : Prop :=
  ∀ k, match blocks[k]? with
    | none => fs (fileName k tile) = none
    | some b => ∃ f, fs (fileName k tile) = some f ∧ Contains f b

theorem filesAre_append {tile : Nat} {fs : FS T C} {blocks : List (List (St T C))}
    (h : FilesAre tile fs blocks) {f : File T C} {b : List (St T C)} (hf : Contains f b) :
    FilesAre tile (fun n => if n = fileName blocks.length tile then some f else fs n)
      (blocks ++ [b]) := by
  intro k
  have hk := h k
  by_cases h1 : k = blocks.length
  · subst h1
    rw [List.getElem?_concat_length]
    exact ⟨f, if_pos rfl, hf⟩
  · have hne : ¬ fileName k tile = fileName blocks.length tile := fun c => h1 (fileName_inj c).1
    have he : (blocks ++ [b])[k]? = blocks[k]? := by
      by_cases h2 : k < blocks.length
      · rw [List.getElem?_append_left h2]
      · rw [List.getElem?_eq_none (l := blocks) (by omega), List.getElem?_eq_none]
        rw [List.length_append, List.length_cons, List.length_nil]; omega
    rw [he]
    simp only [if_neg hne]
    exact hk

/-- The state of a tile with states stored, the last chunk being collected. -/
structure Inv (c tile : Nat) (m : Monitor T C) (fs : FS T C) (l : List (St T C))
    (blocks : List (List (St T C))) (p : List (St T C)) : Prop where
  split : l = blocks.flatten ++ p
  full : ∀ b ∈ blocks, b.length = c
  short : p.length < c
  files : FilesAre tile fs blocks
  time : m.writer.iTime = l.length
  times : m.writer.times = p.map (·.time)
  empty : p = [] → m.writer.chunked = none
  holds : p ≠ [] → ∃ ch, m.writer.chunked = some ch ∧ ChunkHolds ch p
  expected : (l = [] → m.expected = none) ∧ ∀ s0 rest, l = s0 :: rest → m.expected = some s0.keys
  same : ∀ s ∈ l, ∀ s' ∈ l, SameFields s s'

theorem length_flatten_const {α : Type} {c : Nat} {blocks : List (List α)}
    (h : ∀ b ∈ blocks, b.length = c) : blocks.flatten.length = c * blocks.length := by
  induction blocks with
  | nil => rfl
  | cons b blocks ih =>
    rw [List.flatten_cons, List.length_append, h b List.mem_cons_self,
      ih (fun x hx => h x (List.mem_cons_of_mem _ hx)), List.length_cons, Nat.mul_succ]
    omega

/-- The names of a state that are not its time. -/
def NoTime (s : St T C) : Prop := dictGet s.fields "time" = none

theorem dictGet_none_iff {V : Type} (d : List (String × V)) (k : String) :
    dictGet d k = none ↔ k ∉ d.map (·.1) := by
  unfold dictGet
  rw [Option.map_eq_none_iff, List.find?_eq_none, List.mem_map]
  constructor
  · rintro h ⟨e, he, rfl⟩
    exact h e he (by simp)
  · intro h e he hc
    exact h ⟨e, he, by simpa using hc⟩

theorem sameFields_of_sameSet {s s' : St T C} (h : sameSet s.keys s'.keys = true) (h1 : NoTime s)
    (h2 : NoTime s') : SameFields s s' := by
  unfold sameSet at h
  rw [Bool.and_eq_true, List.all_eq_true, List.all_eq_true] at h
  obtain ⟨ha, hb⟩ := h
  have key : ∀ {a b : St T C}, (∀ x ∈ a.keys, b.keys.contains x = true) → NoTime a →
      ∀ v, dictGet b.fields v = none → dictGet a.fields v = none := by
    intro a b h ha v hv
    rw [dictGet_none_iff] at hv ⊢
    intro hm
    have h1 := h v (by unfold St.keys; rw [List.mem_append]; exact .inr hm)
    rw [List.contains_iff_mem] at h1
    unfold St.keys at h1
    rw [List.mem_append] at h1
    rcases h1 with h1 | h1
    · split at h1
      · rw [List.mem_singleton] at h1
        subst h1
        have := (dictGet_none_iff a.fields "time").mp ha
        exact this hm
      · exact absurd h1 (List.not_mem_nil)
    · exact hv h1
  intro v
  exact ⟨key hb h2 v, key ha h1 v⟩

theorem div_mod_facts {c n r q : Nat} (h : n = c * q + r) (hr : r < c) :
    n / c = q ∧ ((n + 1) % c = 0 ↔ r + 1 = c) := by
  subst h
  have hc : 0 < c := by omega
  refine ⟨?_, ?_⟩
  · rw [Nat.mul_add_div hc, Nat.div_eq_of_lt hr]; rfl
  · rw [Nat.add_assoc, Nat.mul_add_mod]
    constructor
    · intro h
      apply Classical.byContradiction
      intro hne
      rw [Nat.mod_eq_of_lt (by omega)] at h
      omega
    · intro h; rw [h, Nat.mod_self]

theorem Inv.store {c tile : Nat} {m : Monitor T C} {fs : FS T C} {l : List (St T C)}
    {blocks : List (List (St T C))} {p : List (St T C)} (h : Inv c tile m fs l blocks p)
    {s : St T C} (hn : (s.fields.map (·.1)).Nodup) (hT : ∀ x ∈ l ++ [s], NoTime x)
    {r : Monitor T C × FS T C} (hs : store c tile m fs s = .ok r) :
    ∃ blocks' p', Inv c tile r.1 r.2 (l ++ [s]) blocks' p' := by
  -- the fields are those of the others
  have hfacts : (∀ s' ∈ l, SameFields s' s) ∧ (∃ w fs', append c tile m.writer fs s = .ok (w, fs') ∧
      r.2 = fs' ∧ r.1.writer = w ∧
      ((l = [] → r.1.expected = some s.keys) ∧ (l ≠ [] → r.1.expected = m.expected))) := by
    unfold NetCDF.store at hs
    cases hl : l with
    | nil =>
      rw [h.expected.1 hl] at hs
      simp only at hs
      refine ⟨fun s' hs' => absurd hs' (List.not_mem_nil), ?_⟩
      cases ha : append c tile m.writer fs s with
      | error x => rw [ha] at hs; cases hs
      | ok y =>
        rw [ha] at hs
        have := Except.ok.inj hs
        subst this
        exact ⟨y.1, y.2, rfl, rfl, rfl, fun _ => rfl, fun c => absurd rfl c⟩
    | cons s0 rest =>
      have he := h.expected.2 s0 rest hl
      rw [he] at hs
      simp only at hs
      split at hs
      · rename_i hset
        have hs0 : SameFields s0 s := sameFields_of_sameSet hset
          (hT s0 (by rw [hl]; simp)) (hT s (by simp))
        refine ⟨?_, ?_⟩
        · intro s' hs'
          have h2 := h.same s' (by rw [hl]; exact hs') s0 (by rw [hl]; exact List.mem_cons_self)
          intro v
          exact (h2 v).trans (hs0 v)
        · cases ha : append c tile m.writer fs s with
          | error x => rw [ha] at hs; cases hs
          | ok y =>
            rw [ha] at hs
            have := Except.ok.inj hs
            subst this
            exact ⟨y.1, y.2, rfl, rfl, rfl, fun c => (by cases c), fun _ => he.symm⟩
      · cases hs
  obtain ⟨hsame, w, fs', ha, rfl, rfl, hexp⟩ := hfacts
  have hlen : l.length = c * blocks.length + p.length := by
    rw [h.split, List.length_append, length_flatten_const h.full]
  obtain ⟨hdiv, hmod⟩ := div_mod_facts hlen h.short
  have hsame' : ∀ x ∈ l ++ [s], ∀ y ∈ l ++ [s], SameFields x y := by
    intro x hx y hy
    rw [List.mem_append, List.mem_singleton] at hx hy
    rcases hx with hx | rfl <;> rcases hy with hy | rfl
    · exact h.same x hx y hy
    · exact hsame x hx
    · intro v; exact (hsame y hy v).symm
    · intro v; exact Iff.rfl
  have hexp' : (l ++ [s] = [] → r.1.expected = none) ∧
      ∀ s0 rest, l ++ [s] = s0 :: rest → r.1.expected = some s0.keys := by
    refine ⟨fun c => absurd c (by simp), ?_⟩
    intro s0 rest e
    cases hl : l with
    | nil =>
      rw [hl, List.nil_append, List.cons.injEq] at e
      rw [hexp.1 hl, e.1]
    | cons a l' =>
      rw [hl, List.cons_append, List.cons.injEq] at e
      rw [hexp.2 (by rw [hl]; simp), ← e.1]
      exact h.expected.2 a l' hl
  unfold append at ha
  cases hch : nextChunk c m.writer.chunked s.fields with
  | error x => rw [hch] at ha; cases ha
  | ok ch =>
    rw [hch] at ha
    have hps : ∀ s' ∈ p, SameFields s' s := fun s' hs' => hsame s' (by
      rw [h.split, List.mem_append]; exact .inr hs')
    have hholds := nextChunk_holds hch hn h.empty h.holds hps
    have hpp : ∀ x ∈ p ++ [s], x ∈ l ++ [s] := by
      intro x hx
      rw [h.split, List.append_assoc, List.mem_append]
      exact .inr hx
    have hsp : ∀ x ∈ p ++ [s], ∀ y ∈ p ++ [s], SameFields x y :=
      fun x hx y hy => hsame' x (hpp x hx) y (hpp y hy)
    have ha' : (if (m.writer.iTime + 1) % c = 0 then
        (.ok ({ (flush c tile { m.writer with chunked := some ch, times := m.writer.times ++ [s.time] }
          fs).1 with iTime := m.writer.iTime + 1 },
          (flush c tile { m.writer with chunked := some ch, times := m.writer.times ++ [s.time] } fs).2)
          : Except Err (Writer T C × FS T C))
        else .ok (⟨m.writer.iTime + 1, some ch, m.writer.times ++ [s.time]⟩, fs)) =
          .ok (r.1.writer, r.2) := by
      rw [← ha]
      show _ = (if (m.writer.iTime + 1) % c = 0 then _ else _)
      split <;> rfl
    clear ha
    rw [h.time] at ha'
    by_cases hfull : p.length + 1 = c
    · rw [if_pos (hmod.mpr hfull)] at ha'
      have ha'' := Except.ok.inj ha'
      obtain ⟨hw, hf⟩ := Prod.mk.inj ha''
      refine ⟨blocks ++ [p ++ [s]], [], ?_⟩
      refine ⟨?_, ?_, by simp only [List.length_nil]; omega, ?_, ?_, ?_, ?_, ?_, hexp', hsame'⟩
      · rw [List.flatten_append, List.append_nil, h.split, List.append_assoc]; simp
      · intro b hb
        rw [List.mem_append, List.mem_singleton] at hb
        rcases hb with hb | rfl
        · exact h.full b hb
        · rw [List.length_append]; exact hfull
      · rw [← hf]
        simp only [flush]
        rw [h.time, hdiv]
        have hc := contains_of_holds (by simp) hholds hsp
        have ht : (p ++ [s]).map (·.time) = m.writer.times ++ [s.time] := by
          rw [List.map_append, h.times]; rfl
        rw [ht] at hc
        exact filesAre_append h.files hc
      · rw [← hw, List.length_append]; rfl
      · rw [← hw]; rfl
      · intro _; rw [← hw]; rfl
      · intro c; exact absurd rfl c
    · rw [if_neg (fun c => hfull (hmod.mp c))] at ha'
      have ha'' := Except.ok.inj ha'
      obtain ⟨hw, hf⟩ := Prod.mk.inj ha''
      refine ⟨blocks, p ++ [s], ?_⟩
      have hsh := h.short
      refine ⟨?_, h.full, by rw [List.length_append, List.length_cons, List.length_nil]; omega,
        ?_, ?_, ?_, ?_, ?_, hexp', hsame'⟩
      · rw [h.split, List.append_assoc]
      · rw [← hf]; exact h.files
      · rw [← hw, List.length_append]; rfl
      · rw [← hw, List.map_append, ← h.times]; rfl
      · intro c; exact absurd c (by simp)
      · intro _; rw [← hw]; exact ⟨ch, rfl, hholds⟩

/-- After the last clean-up: the files are these blocks. -/
structure Done (c tile : Nat) (m : Monitor T C) (fs : FS T C) (l : List (St T C))
    (blocks : List (List (St T C))) : Prop where
  split : blocks.flatten = l
  sizes : ∀ b ∈ blocks, b ≠ [] ∧ b.length ≤ c
  full : ∀ b ∈ blocks.dropLast, b.length = c
  files : FilesAre tile fs blocks
  closed : m.writer.chunked = none

theorem Inv.cleanup {c tile : Nat} {m : Monitor T C} {fs : FS T C} {l : List (St T C)}
    {blocks : List (List (St T C))} {p : List (St T C)} (h : Inv c tile m fs l blocks p) :
    (p = [] → Inv c tile (cleanup c tile m fs).1 (cleanup c tile m fs).2 l blocks []) ∧
      ∃ blocks', Done c tile (cleanup c tile m fs).1 (cleanup c tile m fs).2 l blocks' := by
  have hc : 0 < c := Nat.lt_of_le_of_lt (Nat.zero_le _) h.short
  constructor
  · intro hp
    have h1 := h.empty hp
    unfold NetCDF.cleanup flush
    simp only [h1]
    subst hp
    exact ⟨h.split, h.full, h.short, h.files, h.time, rfl, fun _ => rfl, fun c => absurd rfl c,
      h.expected, h.same⟩
  · by_cases hp : p = []
    · have h1 := h.empty hp
      subst hp
      refine ⟨blocks, ?_, ?_, ?_, ?_, rfl⟩
      · rw [h.split, List.append_nil]
      · intro b hb
        have := h.full b hb
        refine ⟨fun e => ?_, by omega⟩
        rw [e] at this
        simp only [List.length_nil] at this
        omega
      · intro b hb
        exact h.full b (List.dropLast_subset _ hb)
      · unfold NetCDF.cleanup flush
        simp only [h1]
        exact h.files
    · obtain ⟨ch, h1, hh⟩ := h.holds hp
      have hlen : l.length = c * blocks.length + p.length := by
        rw [h.split, List.length_append, length_flatten_const h.full]
      obtain ⟨hdiv, _⟩ := div_mod_facts hlen h.short
      have hsp : ∀ x ∈ p, ∀ y ∈ p, SameFields x y := fun x hx y hy =>
        h.same x (by rw [h.split, List.mem_append]; exact .inr hx) y
          (by rw [h.split, List.mem_append]; exact .inr hy)
      have hcont := contains_of_holds hp hh hsp
      rw [← h.times] at hcont
      refine ⟨blocks ++ [p], ?_, ?_, ?_, ?_, rfl⟩
      · rw [List.flatten_append, h.split]; simp
      · intro b hb
        rw [List.mem_append, List.mem_singleton] at hb
        rcases hb with hb | rfl
        · have := h.full b hb
          refine ⟨fun e => ?_, by omega⟩
          rw [e] at this
          simp only [List.length_nil] at this
          omega
        · exact ⟨hp, Nat.le_of_lt h.short⟩
      · intro b hb
        rw [List.dropLast_concat] at hb
        exact h.full b hb
      · unfold NetCDF.cleanup flush
        simp only [h1]
        rw [h.time, hdiv]
        exact filesAre_append h.files hcont

theorem Done.cleanup {c tile : Nat} {m : Monitor T C} {fs : FS T C} {l : List (St T C)}
    {blocks : List (List (St T C))} (h : Done c tile m fs l blocks) :
    Done c tile (cleanup c tile m fs).1 (cleanup c tile m fs).2 l blocks := by
  have h1 := h.closed
  unfold NetCDF.cleanup flush
  simp only [h1]
  exact ⟨h.split, h.sizes, h.full, h.files, rfl⟩

/-- Clean-ups on one tile, after `n` states. -/
def LLate (c n : Nat) (ops : List (LOp T C)) : Prop :=
  ∀ pre post, ops = pre ++ LOp.cleanup :: post → c ∣ n + (lstored pre).length ∨ lstored post = []

theorem done_run {c tile : Nat} (ops : List (LOp T C)) (hno : lstored ops = []) :
    ∀ {m : Monitor T C} {fs : FS T C} {l : List (St T C)} {blocks : List (List (St T C))},
    Done c tile m fs l blocks → ∀ {x}, ops.foldlM (lstep c tile) (m, fs) = .ok x →
      Done c tile x.1 x.2 l blocks := by
  induction ops with
  | nil => intro m fs l blocks h x hx; cases hx; exact h
  | cons op ops ih =>
    intro m fs l blocks h x hx
    cases op with
    | store s => cases hno
    | cleanup =>
      rw [List.foldlM_cons] at hx
      exact ih hno h.cleanup hx

theorem inv_run {c tile : Nat} (ops : List (LOp T C)) :
    ∀ {m : Monitor T C} {fs : FS T C} {l : List (St T C)} {blocks : List (List (St T C))}
      {p : List (St T C)}, Inv c tile m fs l blocks p → LLate c l.length ops →
      (∀ s ∈ lstored ops, (s.fields.map (·.1)).Nodup) → (∀ s ∈ l ++ lstored ops, NoTime s) →
      ∀ {x}, ops.foldlM (lstep c tile) (m, fs) = .ok x →
        (∃ blocks p, Inv c tile x.1 x.2 (l ++ lstored ops) blocks p) ∨
          ∃ blocks, Done c tile x.1 x.2 (l ++ lstored ops) blocks := by
  induction ops with
  | nil =>
    intro m fs l blocks p h _ _ _ x hx
    cases hx
    refine .inl ⟨blocks, p, ?_⟩
    simpa [lstored] using h
  | cons op ops ih =>
    intro m fs l blocks p h hlate hn hT x hx
    rw [List.foldlM_cons] at hx
    cases op with
    | store s =>
      simp only [lstored] at hn hT ⊢
      cases hs : lstep c tile (m, fs) (.store s) with
      | error e => rw [hs] at hx; cases hx
      | ok r =>
        rw [hs] at hx
        obtain ⟨b', p', h'⟩ := h.store (hn s List.mem_cons_self) (fun y hy => hT y (by
          rw [List.mem_append, List.mem_singleton] at hy
          rw [List.mem_append, List.mem_cons]
          rcases hy with hy | hy
          · exact .inl hy
          · exact .inr (.inl hy))) hs
        have hl' : LLate c (l ++ [s]).length ops := by
          intro pre post e
          have := hlate (.store s :: pre) post (by rw [e]; rfl)
          simp only [lstored, List.length_cons] at this
          rw [List.length_append, List.length_cons, List.length_nil]
          rcases this with h | h
          · left
            have e : l.length + (0 + 1) + (lstored pre).length =
              l.length + ((lstored pre).length + 1) := by omega
            rw [e]; exact h
          · exact .inr h
        have := ih h' hl' (fun y hy => hn y (List.mem_cons_of_mem _ hy)) (fun y hy => hT y (by
          rw [List.append_assoc] at hy; exact hy)) hx
        rw [List.append_assoc] at this
        exact this
    | cleanup =>
      simp only [lstored] at hn hT ⊢
      obtain ⟨h1, blocks', h2⟩ := h.cleanup
      by_cases hp : p = []
      · refine ih (h1 hp) ?_ hn hT hx
        intro pre post e
        exact hlate (.cleanup :: pre) post (by rw [e]; rfl)
      · have hz : lstored ops = [] := by
          rcases hlate [] ops rfl with hd | hd
          · exfalso
            simp only [lstored, List.length_nil, Nat.add_zero] at hd
            have hlen : l.length = c * blocks.length + p.length := by
              rw [h.split, List.length_append, length_flatten_const h.full]
            rw [hlen, Nat.dvd_add_right (Nat.dvd_mul_right _ _)] at hd
            have := Nat.le_of_dvd (List.length_pos_iff.mpr hp) hd
            have := h.short
            omega
          · exact hd
        rw [hz, List.append_nil]
        exact .inr ⟨_, done_run ops hz h2 hx⟩

end NDSL.NetCDF
