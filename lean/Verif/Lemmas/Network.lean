import Verif.Spec.Network
import Mathlib.Tactic.SplitIfs

/-! Invariants of programs of halo updates. -/
namespace NDSL
variable {σ μ : Type}

theorem opCount_succ (prog : List NetOp) (o : NetOp) (k : Nat) :
    opCount prog o (k + 1) = opCount prog o k + (if prog[k]? = some o then 1 else 0) := by
  unfold opCount
  rw [List.take_add_one, List.count_append]
  congr 1
  cases h : prog[k]? with
  | none => simp
  | some x =>
    by_cases hx : x = o
    · subst hx; simp
    · simp [hx]

theorem opCount_mono (prog : List NetOp) (o : NetOp) {a b : Nat} (h : a ≤ b) :
    opCount prog o a ≤ opCount prog o b := by
  induction h with
  | refl => exact Nat.le_refl _
  | step _ ih => rw [opCount_succ]; omega

/-- positions of the starts of an updater -/
def starts (prog : List NetOp) (u k : Nat) : List Nat :=
  (List.range k).filter fun i => decide (prog[i]? = some (.start u))

theorem starts_succ (prog : List NetOp) (u k : Nat) :
    starts prog u (k + 1) = starts prog u k ++ (if prog[k]? = some (.start u) then [k] else []) := by
  unfold starts
  rw [List.range_succ, List.filter_append]
  congr 1
  by_cases h : prog[k]? = some (.start u)
  · simp [h]
  · simp [h]

theorem starts_length (prog : List NetOp) (u k : Nat) :
    (starts prog u k).length = opCount prog (.start u) k := by
  induction k with
  | zero => simp [starts, opCount]
  | succ k ih =>
    rw [starts_succ, List.length_append, ih, opCount_succ]
    split_ifs <;> simp

theorem starts_get (prog : List NetOp) (u : Nat) {a b j : Nat} (h : a ≤ b)
    (hj : j < (starts prog u a).length) : (starts prog u b)[j]? = (starts prog u a)[j]? := by
  induction h with
  | refl => rfl
  | @step b hab ih =>
    have : (starts prog u a).length ≤ (starts prog u b).length := by
      rw [starts_length, starts_length]; exact opCount_mono _ _ hab
    rw [starts_succ, List.getElem?_append_left (by omega), ih]

theorem starts_get' (prog : List NetOp) (u : Nat) {a b j : Nat} (ha : j < (starts prog u a).length)
    (hb : j < (starts prog u b).length) : (starts prog u b)[j]? = (starts prog u a)[j]? := by
  rcases Nat.le_total a b with h | h
  · exact starts_get prog u h ha
  · exact (starts_get prog u h hb).symm

theorem starts_at (prog : List NetOp) (u : Nat) : ∀ (k j i : Nat), (starts prog u k)[j]? = some i →
    i < k ∧ prog[i]? = some (.start u) ∧ opCount prog (.start u) i = j
  | 0, j, i, h => by simp [starts] at h
  | k + 1, j, i, h => by
    rw [starts_succ] at h
    by_cases hj : j < (starts prog u k).length
    · rw [List.getElem?_append_left hj] at h
      have := starts_at prog u k j i h
      exact ⟨by omega, this.2⟩
    · rw [List.getElem?_append_right (by omega)] at h
      split_ifs at h with hk
      · have hz := List.getElem?_eq_some_iff.1 h
        obtain ⟨hz1, hz2⟩ := hz
        simp only [List.length_singleton] at hz1
        have : i = k := by
          have := List.mem_of_getElem? h
          simpa using this
        subst this
        exact ⟨by omega, hk, by rw [← starts_length]; omega⟩
      · simp at h

theorem legal_counts {prog : List NetOp} (h : LegalProg prog) (u : Nat) : ∀ k,
    opCount prog (.wait u) k ≤ opCount prog (.start u) k ∧
    opCount prog (.start u) k ≤ opCount prog (.wait u) k + 1
  | 0 => by simp [opCount]
  | k + 1 => by
    have ih := legal_counts h u k
    rw [opCount_succ, opCount_succ]
    have h1 := (h k u).1
    have h2 := (h k u).2.1
    by_cases c1 : prog[k]? = some (.start u)
    · have := (h1 c1).1
      have c2 : ¬ prog[k]? = some (.wait u) := by rw [c1]; simp
      rw [if_pos c1, if_neg c2]; omega
    · by_cases c2 : prog[k]? = some (.wait u)
      · have := (h2 c2).1
        rw [if_neg c1, if_pos c2]; omega
      · rw [if_neg c1, if_neg c2]; omega

theorem lockstep_succ (a : App σ μ) {prog : List NetOp} (l0 : Lock σ μ) {k : Nat} {o : NetOp}
    (h : prog[k]? = some o) : lockstep a prog l0 (k + 1) = (lockstep a prog l0 k).step a o := by
  unfold lockstep
  rw [List.take_add_one, h, List.foldl_append]
  rfl

theorem lockstep_end (a : App σ μ) {prog : List NetOp} (l0 : Lock σ μ) {k : Nat}
    (h : prog[k]? = none) : lockstep a prog l0 (k + 1) = lockstep a prog l0 k := by
  unfold lockstep
  rw [List.take_add_one, h]
  simp

theorem box_last (a : App σ μ) (prog : List NetOp) (l0 : Lock σ μ) (u : Nat) : ∀ (k i : Nat),
    (starts prog u k).getLast? = some i → ∀ s d,
    (lockstep a prog l0 k).box u s d = a.pack u s d ((lockstep a prog l0 i).st s)
  | 0, i, h, s, d => by simp [starts] at h
  | k + 1, i, h, s, d => by
    rw [starts_succ] at h
    cases hk : prog[k]? with
    | none =>
      rw [hk] at h
      rw [lockstep_end a l0 hk]
      exact box_last a prog l0 u k i (by simpa using h) s d
    | some o =>
      rw [lockstep_succ a l0 hk]
      by_cases ho : o = .start u
      · subst ho
        rw [hk, if_pos rfl] at h
        simp only [List.getLast?_append, List.getLast?_singleton, Option.some_or] at h
        cases h
        simp [Lock.step]
      · rw [hk, if_neg (by simpa using ho), List.append_nil] at h
        have ih := box_last a prog l0 u k i h s d
        cases o with
        | create => exact ih
        | createSync => exact ih
        | compute c => exact ih
        | wait u' => exact ih
        | start u' =>
          have : ¬ u = u' := fun e => ho (by rw [e])
          simp only [Lock.step, if_neg this]
          exact ih

/-- invariant of a rank -/
structure RankInv (a : App σ μ) (prog : List NetOp) (l0 : Lock σ μ) (r : Nat) (s : RankSt σ) : Prop where
  st : s.st = (lockstep a prog l0 s.pc).st r
  lastTag : s.lastTag = opCount prog .create s.pc
  tags : s.tags = (List.range (opCount prog .create s.pc)).map (· + 1)
  infl : ∀ u, s.inflight u = decide (opCount prog (.start u) s.pc = opCount prog (.wait u) s.pc + 1)
  posted : ∀ u, ∀ p ∈ a.nbr u r, s.posted (u + 1) p = opCount prog (.start u) s.pc
  done : ∀ u, ∀ p ∈ a.nbr u r, s.done (u + 1) p = opCount prog (.wait u) s.pc
  slot : ∀ u, ∀ p ∈ a.nbr u r, s.inflight u = true → s.slot u p + 1 = opCount prog (.start u) s.pc

structure NetInv (a : App σ μ) (prog : List NetOp) (l0 : Lock σ μ) (g : Net σ μ) : Prop where
  rank : ∀ r, r < a.ranks → RankInv a prog l0 r (g.rank r)
  chan : ∀ s, s < a.ranks → ∀ u, ∀ d ∈ a.nbr u s, g.chan s d (u + 1) =
    (starts prog u (g.rank s).pc).map fun i => ⟨i, a.pack u s d ((lockstep a prog l0 i).st s)⟩
  log : ∀ e ∈ g.log, OwnUpdate a prog e

theorem tags_get {a : App σ μ} {prog : List NetOp} {l0 : Lock σ μ} {r : Nat} {s : RankSt σ}
    (h : RankInv a prog l0 r s) {u t : Nat} (ht : s.tags[u]? = some t) : t = u + 1 := by
  rw [h.tags, List.getElem?_map] at ht
  obtain ⟨x, h1, h2⟩ := Option.map_eq_some_iff.1 ht
  have := List.getElem?_eq_some_iff.1 h1
  obtain ⟨h3, h4⟩ := this
  rw [List.getElem_range] at h4
  omega

theorem tags_some {a : App σ μ} {prog : List NetOp} {l0 : Lock σ μ} {r : Nat} {s : RankSt σ}
    (h : RankInv a prog l0 r s) {u : Nat} (hu : u < opCount prog .create s.pc) :
    s.tags[u]? = some (u + 1) := by
  rw [h.tags, List.getElem?_map, List.getElem?_range hu]
  rfl

/-- what a ready wait takes -/
theorem taken_eq {a : App σ μ} {prog : List NetOp} {l0 : Lock σ μ} {g : Net σ μ} {m : Bool}
    (hl : LegalProg prog) (hp : GoodPeers a) (h : NetInv a prog l0 g) {r u : Nat} (hr : r < a.ranks)
    (hop : prog[(g.rank r).pc]? = some (.wait u)) (hready : g.ready a m r u (u + 1) = true) :
    ∃ i, (starts prog u (g.rank r).pc).getLast? = some i ∧
      opCount prog (.start u) i = opCount prog (.wait u) (g.rank r).pc ∧ i < (g.rank r).pc ∧
      prog[i]? = some (.start u) ∧
      g.taken a m r u (u + 1) = (a.nbr u r).map fun p =>
        (p, ⟨i, a.pack u p r ((lockstep a prog l0 i).st p)⟩) := by
  have hri := h.rank r hr
  have hleg := (hl (g.rank r).pc u).2.1 hop
  have hlen := starts_length prog u (g.rank r).pc
  have hne : (starts prog u (g.rank r).pc) ≠ [] := by
    intro e; rw [e] at hlen; simp at hlen; omega
  refine ⟨(starts prog u (g.rank r).pc).getLast hne, List.getLast?_eq_some_getLast hne, ?_⟩
  have hlast : (starts prog u (g.rank r).pc)[opCount prog (.wait u) (g.rank r).pc]? =
      some ((starts prog u (g.rank r).pc).getLast hne) := by
    rw [← List.getLast?_eq_some_getLast hne, List.getLast?_eq_getElem?, hlen, hleg.1]
    rfl
  generalize (starts prog u (g.rank r).pc).getLast hne = i at hlast ⊢
  have hat := starts_at prog u _ _ _ hlast
  refine ⟨hat.2.2, hat.1, hat.2.1, ?_⟩
  have hinfl : (g.rank r).inflight u = true := by rw [hri.infl u]; simpa using hleg.1
  unfold Net.taken
  unfold Net.ready at hready
  rw [List.all_eq_true] at hready
  have key : ∀ p ∈ a.nbr u r, ((g.chan p r (u + 1))[(g.rank r).takes m u (u + 1) p]?).map
      (fun x => (p, x)) = some (p, ⟨i, a.pack u p r ((lockstep a prog l0 i).st p)⟩) := by
    intro p hpn
    have hpr := hp.range u r p hpn
    have hrp := (hp.symm u r p hr hpr).1 hpn
    have hrd := hready p hpn
    simp only [Bool.and_eq_true, decide_eq_true_eq] at hrd
    have htk : (g.rank r).takes m u (u + 1) p = opCount prog (.wait u) (g.rank r).pc := by
      unfold RankSt.takes
      have h1 := hri.slot u p hpn hinfl
      have h2 := hri.done u p hpn
      split <;> omega
    rw [htk] at hrd ⊢
    rw [h.chan p hpr u r hrp] at hrd ⊢
    rw [List.length_map] at hrd
    rw [List.getElem?_map, starts_get' prog u (a := (g.rank r).pc) (by omega) hrd.1, hlast]
    rfl
  clear hready
  generalize a.nbr u r = l at key
  induction l with
  | nil => rfl
  | cons p l ih =>
    rw [List.filterMap_cons, key p List.mem_cons_self, List.map_cons]
    simp only
    rw [ih fun q hq => key q (List.mem_cons_of_mem _ hq)]

theorem other_rank {a : App σ μ} {prog : List NetOp} {l0 : Lock σ μ} {g : Net σ μ} {r : Nat}
    {s : RankSt σ} (h : NetInv a prog l0 g) (hs : RankInv a prog l0 r s) :
    ∀ r', r' < a.ranks → RankInv a prog l0 r' ((g.setRank r s).rank r') := by
  intro r' hr'
  unfold Net.setRank
  simp only
  by_cases e : r' = r
  · subst e; rw [if_pos rfl]; exact hs
  · rw [if_neg e]; exact h.rank r' hr'

theorem step_inv {a : App σ μ} {prog : List NetOp} {l0 : Lock σ μ} {g g' : Net σ μ} {m : Bool}
    (hl : LegalProg prog) (hp : GoodPeers a) (h : NetInv a prog l0 g) {r : Nat}
    (hs : g.step a m prog r = some g') :
    NetInv a prog l0 g' ∧ (g'.rank r).pc = (g.rank r).pc + 1 ∧ (g.rank r).pc < prog.length ∧ r < a.ranks ∧
      ∀ r', r' ≠ r → (g'.rank r').pc = (g.rank r').pc := by
  unfold Net.step at hs
  simp only at hs
  by_cases hr : a.ranks ≤ r
  · rw [if_pos hr] at hs; cases hs
  rw [if_neg hr] at hs
  have hr : r < a.ranks := by omega
  have hri := h.rank r hr
  cases hop : prog[(g.rank r).pc]? with
  | none => simp only [hop] at hs; cases hs
  | some o =>
    have hlt : (g.rank r).pc < prog.length := (List.getElem?_eq_some_iff.1 hop).1
    have hL := lockstep_succ a l0 hop
    have cnt := fun o' => opCount_succ prog o' (g.rank r).pc
    cases o with
    | create =>
      simp only [hop] at hs
      cases hs
      refine ⟨⟨other_rank h ⟨?_, ?_, ?_, ?_, ?_, ?_, ?_⟩, ?_, h.log⟩, by simp [Net.setRank], hlt, hr,
        fun r' hr' => by simp [Net.setRank, hr']⟩
      · simp only [RankSt.create]; rw [hL]; exact hri.st
      · simp only [RankSt.create]; rw [cnt, hop, if_pos rfl, hri.lastTag]
      · simp only [RankSt.create]
        rw [cnt, hop, if_pos rfl, hri.lastTag, hri.tags, List.range_succ, List.map_append]
        rfl
      · intro u; simp only [RankSt.create]; rw [cnt, cnt, hop]; simpa using hri.infl u
      · intro u p hpn; simp only [RankSt.create]; rw [cnt, hop]; simpa using hri.posted u p hpn
      · intro u p hpn; simp only [RankSt.create]; rw [cnt, hop]; simpa using hri.done u p hpn
      · intro u p hpn; simp only [RankSt.create]; rw [cnt, hop]; simpa using hri.slot u p hpn
      · intro s hsr u d hd
        have := h.chan s hsr u d hd
        by_cases e : s = r
        · subst e
          simp only [Net.setRank, if_true]
          rw [starts_succ, hop, if_neg (by simp), List.append_nil]
          exact this
        · simp only [Net.setRank, if_neg e]; exact this
    | createSync => exact absurd hop (hl _ 0).2.2
    | compute c =>
      simp only [hop] at hs
      cases hs
      refine ⟨⟨other_rank h ⟨?_, ?_, ?_, ?_, ?_, ?_, ?_⟩, ?_, h.log⟩, by simp [Net.setRank], hlt, hr,
        fun r' hr' => by simp [Net.setRank, hr']⟩
      · simp only; rw [hL, hri.st]; rfl
      · simp only; rw [cnt, hop]; simpa using hri.lastTag
      · simp only; rw [cnt, hop]; simpa using hri.tags
      · intro u; simp only; rw [cnt, cnt, hop]; simpa using hri.infl u
      · intro u p hpn; simp only; rw [cnt, hop]; simpa using hri.posted u p hpn
      · intro u p hpn; simp only; rw [cnt, hop]; simpa using hri.done u p hpn
      · intro u p hpn; simp only; rw [cnt, hop]; simpa using hri.slot u p hpn
      · intro s hsr u d hd
        have := h.chan s hsr u d hd
        by_cases e : s = r
        · subst e
          simp only [Net.setRank, if_true]
          rw [starts_succ, hop, if_neg (by simp), List.append_nil]
          exact this
        · simp only [Net.setRank, if_neg e]; exact this
    | start u =>
      simp only [hop] at hs
      cases ht : (g.rank r).tags[u]? with
      | none => simp only [ht] at hs; cases hs
      | some t =>
        have := tags_get hri ht
        subst this
        simp only [ht] at hs
        by_cases hi : (g.rank r).inflight u = true
        · rw [if_pos hi] at hs; cases hs
        · rw [if_neg hi] at hs
          cases hs
          have hleg := (hl (g.rank r).pc u).1 hop
          refine ⟨⟨?_, ?_, h.log⟩, by simp [Net.setRank], hlt, hr,
            fun r' hr' => by simp [Net.setRank, hr']⟩
          · refine other_rank h ⟨?_, ?_, ?_, ?_, ?_, ?_, ?_⟩
            · simp only [RankSt.post]; rw [hL, hri.st]; rfl
            · simp only [RankSt.post]; rw [cnt, hop]; simpa using hri.lastTag
            · simp only [RankSt.post]; rw [cnt, hop]; simpa using hri.tags
            · intro u'
              simp only [RankSt.post]
              rw [cnt, cnt, hop]
              by_cases e : u' = u
              · subst e
                rw [if_pos rfl]
                simp [hleg.1]
              · rw [if_neg e, if_neg (by simpa using Ne.symm e)]
                simpa using hri.infl u'
            · intro u' p hpn
              simp only [RankSt.post]
              rw [cnt, hop]
              by_cases e : u' = u
              · subst e
                rw [if_pos ⟨rfl, hpn⟩, if_pos rfl, hri.posted u' p hpn]
              · rw [if_neg (by omega), if_neg (by simpa using Ne.symm e)]
                exact hri.posted u' p hpn
            · intro u' p hpn
              simp only [RankSt.post]
              rw [cnt, hop]
              simpa using hri.done u' p hpn
            · intro u' p hpn hi'
              simp only [RankSt.post] at hi' ⊢
              rw [cnt, hop]
              by_cases e : u' = u
              · subst e
                rw [if_pos ⟨rfl, hpn⟩, if_pos rfl, hri.posted u' p hpn]
              · rw [if_neg e] at hi'
                rw [if_neg (by omega), if_neg (by simpa using Ne.symm e)]
                exact hri.slot u' p hpn hi'
          · intro s hsr u' d hd
            have hch := h.chan s hsr u' d hd
            by_cases e : s = r
            · subst e
              simp only [Net.setRank, if_true]
              rw [starts_succ, hop]
              by_cases e' : u' = u
              · subst e'
                rw [if_pos ⟨trivial, rfl, hd⟩, if_pos rfl, List.map_append, hch]
                simp only [List.map_cons, List.map_nil, hri.st]
              · rw [if_neg (by omega), if_neg (by simpa using Ne.symm e'), List.append_nil]
                exact hch
            · have e3 : ¬ (s = r ∧ u' + 1 = u + 1 ∧ d ∈ a.nbr u r) := fun z => e z.1
              simp only [Net.setRank, if_neg e, if_neg e3]
              exact hch
    | wait u =>
      simp only [hop] at hs
      cases ht : (g.rank r).tags[u]? with
      | none => simp only [ht] at hs; cases hs
      | some t =>
        have := tags_get hri ht
        subst this
        simp only [ht] at hs
        by_cases hi : (!(g.rank r).inflight u) = true
        · rw [if_pos hi] at hs; cases hs
        · rw [if_neg hi] at hs
          by_cases hrdy : (!g.ready a m r u (u + 1)) = true
          · rw [if_pos hrdy] at hs; cases hs
          · rw [if_neg hrdy] at hs
            have hready : g.ready a m r u (u + 1) = true := by simpa using hrdy
            obtain ⟨i, i1, i2, i3, i4, i5⟩ := taken_eq hl hp h hr hop hready
            rw [i5] at hs
            cases hs
            have hleg := (hl (g.rank r).pc u).2.1 hop
            refine ⟨⟨?_, ?_, ?_⟩, by simp [Net.setRank], hlt, hr,
              fun r' hr' => by simp [Net.setRank, hr']⟩
            · refine other_rank h ⟨?_, ?_, ?_, ?_, ?_, ?_, ?_⟩
              · simp only
                rw [hL, hri.st, List.map_map]
                simp only [Lock.step]
                congr 1
                apply List.map_congr_left
                intro p _
                simp only [Function.comp]
                rw [box_last a prog l0 u _ i i1]
              · simp only; rw [cnt, hop]; simpa using hri.lastTag
              · simp only; rw [cnt, hop]; simpa using hri.tags
              · intro u'
                simp only
                rw [cnt, cnt, hop]
                by_cases e : u' = u
                · subst e
                  rw [if_pos rfl]
                  have : ¬ some (NetOp.wait u') = some (NetOp.start u') := by simp
                  rw [if_neg this, if_pos rfl]
                  symm
                  rw [decide_eq_false_iff_not]
                  omega
                · rw [if_neg e, if_neg (by simp), if_neg (by simpa using Ne.symm e)]
                  exact hri.infl u'
              · intro u' p hpn
                simp only
                rw [cnt, hop]
                simpa using hri.posted u' p hpn
              · intro u' p hpn
                simp only
                rw [cnt, hop]
                by_cases e : u' = u
                · subst e
                  rw [if_pos ⟨rfl, hpn⟩, if_pos rfl, hri.done u' p hpn]
                · rw [if_neg (by omega), if_neg (by simpa using Ne.symm e)]
                  exact hri.done u' p hpn
              · intro u' p hpn hi'
                simp only at hi' ⊢
                rw [cnt, hop]
                by_cases e : u' = u
                · rw [if_pos e] at hi'; cases hi'
                · rw [if_neg e] at hi'
                  simpa using hri.slot u' p hpn hi'
            · intro s hsr u' d hd
              have hch := h.chan s hsr u' d hd
              by_cases e : s = r
              · subst e
                simp only [Net.setRank, if_true]
                rw [starts_succ, hop, if_neg (by simp), List.append_nil]
                exact hch
              · simp only [Net.setRank, if_neg e]; exact hch
            · intro e he
              simp only at he
              rcases List.mem_append.1 he with he | he
              · exact h.log e he
              · rw [List.map_map] at he
                obtain ⟨p, hpn, rfl⟩ := List.mem_map.1 he
                exact ⟨hr, hpn, hop, i4, i3, i2⟩

theorem init_inv (a : App σ μ) (prog : List NetOp) (l0 : Lock σ μ) :
    NetInv a prog l0 (Net.init l0.st) := by
  refine ⟨fun r _ => ⟨?_, ?_, ?_, ?_, ?_, ?_, ?_⟩, ?_, ?_⟩
  all_goals simp [Net.init, opCount, lockstep, starts]

theorem run_inv {a : App σ μ} {prog : List NetOp} {l0 : Lock σ μ} {m : Bool}
    (hl : LegalProg prog) (hp : GoodPeers a) : ∀ (sched : List Nat) (g g' : Net σ μ),
    NetInv a prog l0 g → g.run a m prog sched = some g' → NetInv a prog l0 g'
  | [], g, g', h, hs => by cases hs; exact h
  | r :: rs, g, g', h, hs => by
    unfold Net.run at hs
    obtain ⟨g1, h1, h2⟩ := Option.bind_eq_some_iff.1 hs
    exact run_inv hl hp rs g1 g' (step_inv hl hp h h1).1 h2

theorem exists_min (f : Nat → Nat) : ∀ n, 0 < n → ∃ r, r < n ∧ ∀ p, p < n → f r ≤ f p
  | 0, h => by omega
  | 1, _ => ⟨0, by omega, fun p hp => by have : p = 0 := by omega
                                         subst this; exact Nat.le_refl _⟩
  | n + 2, _ => by
    obtain ⟨r, hr, h⟩ := exists_min f (n + 1) (by omega)
    by_cases hc : f r ≤ f (n + 1)
    · refine ⟨r, by omega, fun p hp => ?_⟩
      by_cases hpn : p = n + 1
      · subst hpn; exact hc
      · exact h p (by omega)
    · refine ⟨n + 1, by omega, fun p hp => ?_⟩
      by_cases hpn : p = n + 1
      · subst hpn; exact Nat.le_refl _
      · have := h p (by omega); omega

theorem progress {a : App σ μ} {prog : List NetOp} {l0 : Lock σ μ} {g : Net σ μ} (m : Bool)
    (hl : LegalProg prog) (hp : GoodPeers a) (h : NetInv a prog l0 g)
    (hn : ∃ r, r < a.ranks ∧ (g.rank r).pc < prog.length) :
    ∃ r, r < a.ranks ∧ ∃ g', g.step a m prog r = some g' := by
  obtain ⟨r0, hr0, hlt0⟩ := hn
  obtain ⟨r, hr, hmin⟩ := exists_min (fun r => (g.rank r).pc) a.ranks (by omega)
  have hlt : (g.rank r).pc < prog.length := by have := hmin r0 hr0; omega
  refine ⟨r, hr, ?_⟩
  have hri := h.rank r hr
  have hop : prog[(g.rank r).pc]? = some prog[(g.rank r).pc] := List.getElem?_eq_getElem hlt
  unfold Net.step
  simp only
  rw [if_neg (by omega)]
  generalize prog[(g.rank r).pc] = o at hop
  rw [hop]
  cases o with
  | create => exact ⟨_, rfl⟩
  | createSync => exact ⟨_, rfl⟩
  | compute c => exact ⟨_, rfl⟩
  | start u =>
    have hleg := (hl _ u).1 hop
    simp only [tags_some hri hleg.2]
    have : ¬ (g.rank r).inflight u = true := by
      rw [hri.infl u]; simp [hleg.1]
    rw [if_neg this]
    exact ⟨_, rfl⟩
  | wait u =>
    have hleg := (hl _ u).2.1 hop
    simp only [tags_some hri hleg.2]
    have hi : (g.rank r).inflight u = true := by
      rw [hri.infl u]; simp [hleg.1]
    have hrdy : g.ready a m r u (u + 1) = true := by
      unfold Net.ready
      rw [List.all_eq_true]
      intro p hpn
      have hpr := hp.range u r p hpn
      have hrp := (hp.symm u r p hr hpr).1 hpn
      have hle := hmin p hpr
      have hmono := opCount_mono prog (.start u) hle
      have hlen1 : (g.chan p r (u + 1)).length = opCount prog (.start u) (g.rank p).pc := by
        rw [h.chan p hpr u r hrp, List.length_map, starts_length]
      have hlen2 : (g.chan r p (u + 1)).length = opCount prog (.start u) (g.rank r).pc := by
        rw [h.chan r hr u p hpn, List.length_map, starts_length]
      have hpost := (h.rank p hpr).posted u r hrp
      have h1 := hri.slot u p hpn hi
      have h2 := hri.done u p hpn
      have htk : (g.rank r).takes m u (u + 1) p = opCount prog (.wait u) (g.rank r).pc := by
        unfold RankSt.takes
        split <;> omega
      simp only [Bool.and_eq_true, decide_eq_true_eq]
      omega
    rw [hi, hrdy]
    simp

/-- steps taken by all ranks together -/
def stepsDone (f : Nat → Nat) : Nat → Nat
  | 0 => 0
  | n + 1 => stepsDone f n + f n

theorem stepsDone_le (f : Nat → Nat) (b : Nat) : ∀ n, (∀ r, r < n → f r ≤ b) → stepsDone f n ≤ n * b
  | 0, _ => by simp [stepsDone]
  | n + 1, h => by
    have := stepsDone_le f b n (fun r hr => h r (by omega))
    have := h n (by omega)
    unfold stepsDone
    rw [Nat.add_mul]; omega

theorem stepsDone_congr (f g : Nat → Nat) : ∀ n, (∀ r, r < n → f r = g r) → stepsDone f n = stepsDone g n
  | 0, _ => rfl
  | n + 1, h => by
    unfold stepsDone
    rw [stepsDone_congr f g n (fun r hr => h r (by omega)), h n (by omega)]

theorem stepsDone_step (f g : Nat → Nat) (r : Nat) (h1 : g r = f r + 1) (h2 : ∀ r', r' ≠ r → g r' = f r') :
    ∀ n, r < n → stepsDone g n = stepsDone f n + 1
  | 0, h => by omega
  | n + 1, h => by
    unfold stepsDone
    by_cases e : r = n
    · subst e
      rw [stepsDone_congr g f r (fun r' hr' => h2 r' (by omega)), h1]; omega
    · rw [stepsDone_step f g r h1 h2 n (by omega), h2 n (by omega)]; omega

theorem run_steps {a : App σ μ} {prog : List NetOp} {l0 : Lock σ μ} {m : Bool}
    (hl : LegalProg prog) (hp : GoodPeers a) : ∀ (sched : List Nat) (g g' : Net σ μ),
    NetInv a prog l0 g → g.run a m prog sched = some g' →
    (∀ r, (g.rank r).pc ≤ prog.length) →
    stepsDone (fun r => (g'.rank r).pc) a.ranks = stepsDone (fun r => (g.rank r).pc) a.ranks + sched.length ∧
    (∀ r, (g'.rank r).pc ≤ prog.length)
  | [], g, g', h, hs, hb => by cases hs; exact ⟨rfl, hb⟩
  | r :: rs, g, g', h, hs, hb => by
    unfold Net.run at hs
    obtain ⟨g1, h1, h2⟩ := Option.bind_eq_some_iff.1 hs
    have hst := step_inv hl hp h h1
    have hb1 : ∀ r', (g1.rank r').pc ≤ prog.length := by
      intro r'
      by_cases e : r' = r
      · subst e; omega
      · rw [hst.2.2.2.2 r' e]; exact hb r'
    have := run_steps hl hp rs g1 g' hst.1 h2 hb1
    have hs1 := stepsDone_step (fun r => (g.rank r).pc) (fun r => (g1.rank r).pc) r hst.2.1 hst.2.2.2.2
      a.ranks hst.2.2.2.1
    refine ⟨?_, this.2⟩
    rw [this.1, hs1, List.length_cons]; omega

theorem netRun_append {a : App σ μ} {prog : List NetOp} {m : Bool} : ∀ (s1 s2 : List Nat) (g : Net σ μ),
    g.run a m prog (s1 ++ s2) = (g.run a m prog s1).bind (Net.run a m prog s2)
  | [], s2, g => rfl
  | r :: s1, s2, g => by
    rw [List.cons_append]
    unfold Net.run
    cases g.step a m prog r with
    | none => rfl
    | some g1 => exact netRun_append s1 s2 g1

theorem can_finish {a : App σ μ} {prog : List NetOp} {l0 : Lock σ μ} (m : Bool)
    (hl : LegalProg prog) (hp : GoodPeers a) : ∀ (n : Nat) (g : Net σ μ), NetInv a prog l0 g →
    (∀ r, (g.rank r).pc ≤ prog.length) →
    a.ranks * prog.length - stepsDone (fun r => (g.rank r).pc) a.ranks ≤ n →
    ∃ sched g', g.run a m prog sched = some g' ∧ ∀ r, r < a.ranks → (g'.rank r).pc = prog.length := by
  intro n
  induction n with
  | zero =>
    intro g h hb hn
    refine ⟨[], g, rfl, fun r hr => ?_⟩
    apply Classical.byContradiction
    intro hne
    obtain ⟨r1, hr1, g1, hg1⟩ := progress m hl hp h ⟨r, hr, by have := hb r; omega⟩
    have hr := run_steps hl hp [r1] g g1 h (by unfold Net.run; rw [hg1]; rfl) hb
    have := stepsDone_le (fun r => (g1.rank r).pc) prog.length a.ranks (fun r _ => hr.2 r)
    rw [hr.1] at this
    simp only [List.length_singleton] at this
    omega
  | succ n ih =>
    intro g h hb hn
    by_cases hf : ∃ r, r < a.ranks ∧ (g.rank r).pc < prog.length
    · obtain ⟨r1, hr1, g1, hg1⟩ := progress m hl hp h hf
      have hrs := run_steps hl hp [r1] g g1 h (by unfold Net.run; rw [hg1]; rfl) hb
      have h1 := hrs.1
      simp only [List.length_singleton] at h1
      obtain ⟨sched, g', h2, h3⟩ := ih g1 (step_inv hl hp h hg1).1 hrs.2 (by omega)
      exact ⟨r1 :: sched, g', by unfold Net.run; rw [hg1]; exact h2, h3⟩
    · refine ⟨[], g, rfl, fun r hr => ?_⟩
      apply Classical.byContradiction
      intro hne
      exact hf ⟨r, hr, by have := hb r; omega⟩

end NDSL
