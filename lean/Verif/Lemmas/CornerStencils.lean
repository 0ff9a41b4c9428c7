import Mathlib.Data.List.Induction
import Verif.Spec.CornerStencils

/-! Lemmas for the corner stencils: closed form of a run, and a decidable check on the table of a
stencil that implies `Filled` for all tiles. -/
namespace NDSL.Corner

variable {K : Type} [Mul K]

/-- The last statement that writes a point of a storage. -/
def lastWrite (e : Ext) (bind : Param → Nat) (tbl : List Stmt) (s : Nat) (i j : Int) :
    Option Stmt :=
  tbl.foldl (fun acc t => if s = bind t.dst ∧ inRegs e t.regs i j = true then some t else acc) none

/-- No statement reads a point that a statement writes. -/
def NoReadWritten (e : Ext) (bind : Param → Nat) (tbl : List Stmt) : Prop :=
  ∀ t ∈ tbl, ∀ i j, inRegs e t.regs i j = true → ∀ s ∈ tbl, bind t.src = bind s.dst →
    inRegs e s.regs (i + t.off.1) (j + t.off.2) = false

theorem lastWrite_append (e : Ext) (bind : Param → Nat) (l : List Stmt) (t : Stmt) (s : Nat)
    (i j : Int) : lastWrite e bind (l ++ [t]) s i j =
      if s = bind t.dst ∧ inRegs e t.regs i j = true then some t else lastWrite e bind l s i j := by
  simp [lastWrite, List.foldl_append]

theorem lastWrite_none {e : Ext} {bind : Param → Nat} {l : List Stmt} {s : Nat} {i j : Int}
    (h : ∀ t ∈ l, s = bind t.dst → inRegs e t.regs i j = false) :
    lastWrite e bind l s i j = none := by
  suffices ∀ acc, l.foldl (fun acc t => if s = bind t.dst ∧ inRegs e t.regs i j = true
      then some t else acc) acc = acc from this none
  induction l with
  | nil => intro acc; rfl
  | cons t l ih =>
    intro acc
    rw [List.foldl_cons, if_neg]
    · exact ih (fun t ht => h t (List.mem_cons_of_mem _ ht)) acc
    · rintro ⟨h1, h2⟩
      rw [h t (List.mem_cons_self ..) h1] at h2
      cases h2

theorem run_append (e : Ext) (dom : Int → Int → Bool) (nk : Nat) (env : Coef → K)
    (bind : Param → Nat) (l : List Stmt) (t : Stmt) (mem : Nat → Storage K) :
    run e dom nk env bind (l ++ [t]) mem = exec e dom nk env bind (run e dom nk env bind l mem) t := by
  simp [run, List.foldl_append]

theorem run_eq (e : Ext) (dom : Int → Int → Bool) (nk : Nat) (env : Coef → K)
    (bind : Param → Nat) (mem : Nat → Storage K) (tbl : List Stmt) :
    NoReadWritten e bind tbl → ∀ s i j k,
    run e dom nk env bind tbl mem s i j k =
      if dom i j = true ∧ k < nk then
        match lastWrite e bind tbl s i j with
        | none => mem s i j k
        | some t => scale env t.coef (mem (bind t.src) (i + t.off.1) (j + t.off.2) k)
      else mem s i j k := by
  induction tbl using List.reverseRecOn with
  | nil => intro _ s i j k; simp [run, lastWrite]
  | append_singleton l t ih =>
    intro h s i j k
    have hl : NoReadWritten e bind l := fun a ha i j hi b hb =>
      h a (List.mem_append_left _ ha) i j hi b (List.mem_append_left _ hb)
    rw [run_append, lastWrite_append]
    by_cases hd : dom i j = true ∧ k < nk
    · rw [if_pos hd]
      by_cases hm : s = bind t.dst ∧ inRegs e t.regs i j = true
      · rw [if_pos hm, exec, if_pos ⟨hm.1, hd.1, hd.2, hm.2⟩, ih hl]
        have hn : lastWrite e bind l (bind t.src) (i + t.off.1) (j + t.off.2) = none :=
          lastWrite_none fun a ha hb =>
            h t (by simp) i j hm.2 a (List.mem_append_left _ ha) hb
        rw [hn]
        simp
      · rw [if_neg hm, exec, if_neg (fun hc => hm ⟨hc.1, hc.2.2.2⟩), ih hl, if_pos hd]
    · rw [if_neg hd, exec, if_neg (fun hc => hd ⟨hc.2.1, hc.2.2.1⟩), ih hl, if_neg hd]

/-! ### Symbolic points -/

/-- Displacement of a bound from its edge of the tile. -/
def symDisp (pl : Place) : Bound → Int
  | .S a => pl.pos a
  | .E a => pl.pos a - 2

/-- The indices of the halo beyond an edge. -/
def haloBounds (pl : Place) (h : Nat) : Bool → List Bound
  | false => (List.range h).map fun (a : Nat) => Bound.S (-(a : Int) - 1)
  | true => (List.range h).map fun (a : Nat) =>
      Bound.E ((a : Int) + match pl with | .centre => 1 | .edge => 2)

theorem symDisp_spec (pl : Place) (h : Nat) (plus : Bool) (s e : Int) (b : Bound)
    (hb : b ∈ haloBounds pl h plus) (o : Int) (pl' : Place) :
    pl'.pos (b.at s e + o) - (if plus then 2 * (e + 1) else 2 * s) = symDisp pl' b + 2 * o := by
  cases plus <;> simp only [haloBounds, List.mem_map] at hb <;> obtain ⟨a, _, rfl⟩ := hb <;>
    cases pl' <;> simp only [Bound.at, symDisp, Place.pos] <;> simp <;> omega

theorem beyond_iff (pl : Place) (h : Nat) (plus : Bool) (s e i : Int) :
    Beyond plus h (pl.pos i - (if plus then 2 * (e + 1) else 2 * s)) ↔
      ∃ b ∈ haloBounds pl h plus, i = b.at s e := by
  cases plus <;> simp only [haloBounds, Beyond, List.mem_map, List.mem_range, if_true, if_false,
    Bool.false_eq_true]
  · constructor
    · intro hd
      refine ⟨_, ⟨(s - i - 1).toNat, ?_, rfl⟩, ?_⟩ <;> cases pl <;>
        simp only [Place.pos, Bound.at] at * <;> omega
    · rintro ⟨_, ⟨a, ha, rfl⟩, rfl⟩
      cases pl <;> simp only [Place.pos, Bound.at] <;> omega
  · constructor
    · intro hd
      cases pl with
      | centre =>
        refine ⟨_, ⟨(i - e - 1).toNat, ?_, rfl⟩, ?_⟩ <;>
        simp only [Place.pos, Bound.at] at * <;> omega
      | edge =>
        refine ⟨_, ⟨(i - e - 2).toNat, ?_, rfl⟩, ?_⟩ <;>
        simp only [Place.pos, Bound.at] at * <;> omega
    · rintro ⟨_, ⟨a, ha, rfl⟩, rfl⟩
      cases pl <;> simp only [Place.pos, Bound.at] <;> omega

/-- Two bounds denote different indices on every tile with at least `n` cells. -/
def apart (n : Int) : Bound → Bound → Bool
  | .S a, .S b => decide (a ≠ b)
  | .E a, .E b => decide (a ≠ b)
  | .S a, .E b => decide (a - b < n - 1)
  | .E b, .S a => decide (a - b < n - 1)

theorem apart_spec {n s e : Int} (h : s + n ≤ e + 1) {b c : Bound} (ha : apart n b c = true) :
    b.at s e ≠ c.at s e := by
  cases b <;> cases c <;> simp only [apart, decide_eq_true_eq, Bound.at] at * <;> omega

def Bound.plus (b : Bound) (o : Int) : Bound :=
  match b with
  | .S a => .S (a + o)
  | .E a => .E (a + o)

theorem Bound.plus_at (b : Bound) (o s e : Int) : (b.plus o).at s e = b.at s e + o := by
  cases b <;> simp only [Bound.plus, Bound.at] <;> omega

/-- Check that no statement reads what a statement writes, on tiles with at least `n` cells, when
only the parameters related by `share` may share a storage. -/
def checkReads (n : Int) (share : Param → Param → Bool) (tbl : List Stmt) : Bool :=
  tbl.all fun t => tbl.all fun s => !share t.src s.dst ||
    match t.regs, s.regs with
    | some rt, some rs => rt.all fun b => rs.all fun c =>
        apart n (b.1.plus t.off.1) c.1 || apart n (b.2.plus t.off.2) c.2
    | _, _ => false

theorem noReadWritten_of_check {e : Ext} {n : Int} {bind : Param → Nat}
    {share : Param → Param → Bool} {tbl : List Stmt} (hn : AtLeast e n)
    (hc : checkReads n share tbl = true)
    (hb : ∀ t ∈ tbl, ∀ s ∈ tbl, bind t.src = bind s.dst → share t.src s.dst = true) :
    NoReadWritten e bind tbl := by
  intro t ht i j hi s hs hbind
  have hal := hb t ht s hs hbind
  have h1 := List.all_eq_true.mp (List.all_eq_true.mp hc t ht) s hs
  rw [hal] at h1
  cases hrt : t.regs with
  | none => rw [hrt] at h1; simp at h1
  | some rt =>
    cases hrs : s.regs with
    | none => rw [hrt, hrs] at h1; simp at h1
    | some rs =>
      rw [hrt, hrs] at h1
      simp only [Bool.not_true, Bool.false_or] at h1
      rw [hrt] at hi
      simp only [inRegs, List.any_eq_true, Bool.and_eq_true, decide_eq_true_eq] at hi
      obtain ⟨b, hb1, hi1, hi2⟩ := hi
      simp only [inRegs, List.any_eq_false, Bool.and_eq_true, decide_eq_true_eq, not_and]
      intro c hc1 he1 he2
      have h2 := List.all_eq_true.mp (List.all_eq_true.mp h1 b hb1) c hc1
      rcases Bool.or_eq_true _ _ |>.mp h2 with h3 | h3
      · have := apart_spec hn.1 h3
        rw [Bound.plus_at] at this
        subst hi1; exact this he1
      · have := apart_spec hn.2 h3
        rw [Bound.plus_at] at this
        subst hi2; exact this he2

/-- The last statement of the table that writes parameter `dst` at a symbolic point. -/
def lookup (tbl : List Stmt) (dst : Param) (bi bj : Bound) : Option Stmt :=
  tbl.foldl (fun acc t => if dst = t.dst ∧ (match t.regs with
    | none => true | some rs => rs.contains (bi, bj)) = true then some t else acc) none

/-- All bounds of the regions of a table are beyond the tile. -/
def outer : Bound → Bool
  | .S a => decide (a < 0)
  | .E a => decide (0 < a)

def outerTable (tbl : List Stmt) : Bool :=
  tbl.all fun t => match t.regs with
    | none => true
    | some rs => rs.all fun r => outer r.1 && outer r.2

theorem outer_inj {s e : Int} (h : s + 1 ≤ e + 1) {b c : Bound} (hb : outer b = true)
    (hc : outer c = true) : b.at s e = c.at s e ↔ b = c := by
  cases b <;> cases c <;> simp only [outer, decide_eq_true_eq, Bound.at] at * <;>
    constructor <;> intro h' <;> simp at * <;> omega

theorem haloBounds_outer {pl : Place} {h : Nat} {plus : Bool} {b : Bound}
    (hb : b ∈ haloBounds pl h plus) : outer b = true := by
  cases plus <;> simp only [haloBounds, List.mem_map] at hb <;> obtain ⟨a, _, rfl⟩ := hb <;>
    cases pl <;> simp only [outer, decide_eq_true_eq] <;> omega

theorem lastWrite_eq_lookup {e : Ext} {bind : Param → Nat} {tbl : List Stmt} {dst : Param}
    {bi bj : Bound} (hn : AtLeast e 1) (ho : outerTable tbl = true)
    (hd : ∀ t ∈ tbl, bind dst = bind t.dst → dst = t.dst)
    (hi : outer bi = true) (hj : outer bj = true) :
    lastWrite e bind tbl (bind dst) (bi.at e.iS e.iE) (bj.at e.jS e.jE) = lookup tbl dst bi bj := by
  unfold lastWrite lookup
  suffices ∀ acc, tbl.foldl (fun acc t => if bind dst = bind t.dst ∧
      inRegs e t.regs (bi.at e.iS e.iE) (bj.at e.jS e.jE) = true then some t else acc) acc =
    tbl.foldl (fun acc t => if dst = t.dst ∧ (match t.regs with
    | none => true | some rs => rs.contains (bi, bj)) = true then some t else acc) acc from this none
  induction tbl with
  | nil => intro acc; rfl
  | cons t l ih =>
    intro acc
    rw [List.foldl_cons, List.foldl_cons]
    have ho' : outerTable l = true := by
      simp only [outerTable, List.all_cons, Bool.and_eq_true] at ho ⊢; exact ho.2
    have hcond : (bind dst = bind t.dst ∧
        inRegs e t.regs (bi.at e.iS e.iE) (bj.at e.jS e.jE) = true) ↔
        (dst = t.dst ∧ (match t.regs with
          | none => true | some rs => rs.contains (bi, bj)) = true) := by
      have h1 : bind dst = bind t.dst ↔ dst = t.dst :=
        ⟨hd t (List.mem_cons_self ..), fun h => by rw [h]⟩
      rw [h1]
      refine and_congr_right fun _ => ?_
      have hot := List.all_eq_true.mp ho t (List.mem_cons_self ..)
      cases hr : t.regs with
      | none => simp [inRegs]
      | some rs =>
        rw [hr] at hot
        simp only [inRegs, List.any_eq_true, Bool.and_eq_true, decide_eq_true_eq,
          List.contains_iff_mem] 
        constructor
        · rintro ⟨r, hr1, h2, h3⟩
          have hor := List.all_eq_true.mp hot r hr1
          rw [Bool.and_eq_true] at hor
          have h4 := (outer_inj hn.1 hi hor.1).mp h2
          have h5 := (outer_inj hn.2 hj hor.2).mp h3
          rw [h4, h5]; exact hr1
        · intro hm
          exact ⟨_, hm, rfl, rfl⟩
    by_cases hc : bind dst = bind t.dst ∧
        inRegs e t.regs (bi.at e.iS e.iE) (bj.at e.jS e.jE) = true
    · rw [if_pos hc, if_pos (hcond.mp hc)]
      exact ih ho' (fun t ht => hd t (List.mem_cons_of_mem _ ht)) _
    · rw [if_neg hc, if_neg (fun h => hc (hcond.mpr h))]
      exact ih ho' (fun t ht => hd t (List.mem_cons_of_mem _ ht)) _

/-- Check that a table fills the corners of `dst` from `src`. -/
def checkFill (tbl : List Stmt) (dst src : Param) (dir : Direction) (st st' : Stagger)
    (hx hy : Nat) (coef : Bool → Bool → Coef) : Bool :=
  [false, true].all fun east => [false, true].all fun north =>
    (haloBounds st.1 hx east).all fun bi => (haloBounds st.2 hy north).all fun bj =>
      match lookup tbl dst bi bj with
      | none => false
      | some t =>
        let d := (symDisp st.1 bi, symDisp st.2 bj)
        let d' := (symDisp st'.1 bi + 2 * t.off.1, symDisp st'.2 bj + 2 * t.off.2)
        decide (t.src = src) && decide (t.coef = coef east north) &&
          decide (d' = turnLeft d ∨ d' = turnRight d) &&
          match dir with
          | .x => decide (SameSide d.1 d'.1)
          | .y => decide (SameSide d.2 d'.2)

/-- Check that nothing else of `dst` is written. -/
def checkOnly (tbl : List Stmt) (dst : Param) (st : Stagger) (hx hy : Nat) : Bool :=
  tbl.all fun t => if t.dst = dst then
    match t.regs with
    | none => false
    | some rs => rs.all fun r => [false, true].any fun east => [false, true].any fun north =>
        (haloBounds st.1 hx east).contains r.1 && (haloBounds st.2 hy north).contains r.2
  else true

/-- A source is determined by its point. -/
theorem source_unique {e : Ext} {dir : Direction} {st st' : Stagger} {east north : Bool}
    {p p' p'' : Point} (h1 : IsSource e dir st st' east north p p')
    (h2 : IsSource e dir st st' east north p p'') : p' = p'' := by
  obtain ⟨s1, s2⟩ := st'
  obtain ⟨a, b⟩ := p'
  obtain ⟨c, d⟩ := p''
  have hinj : disp e (s1, s2) east north (a, b) = disp e (s1, s2) east north (c, d) := by
    obtain ⟨h1, h3⟩ := h1
    obtain ⟨h2, h4⟩ := h2
    generalize disp e (s1, s2) east north (a, b) = u at *
    generalize disp e (s1, s2) east north (c, d) = v at *
    generalize disp e st east north p = w at *
    rcases h1 with rfl | rfl <;> rcases h2 with rfl | rfl <;> try rfl
    all_goals cases dir <;> simp only [SameSide, turnLeft, turnRight] at h3 h4 <;> omega
  simp only [disp, Prod.mk.injEq] at hinj
  cases s1 <;> cases s2 <;> simp only [Place.pos, Prod.mk.injEq] at hinj ⊢ <;> omega

theorem inCorner_iff {e : Ext} {st : Stagger} {hx hy : Nat} {east north : Bool} {p : Point} :
    InCorner e st hx hy east north p ↔ (∃ bi ∈ haloBounds st.1 hx east, p.1 = bi.at e.iS e.iE) ∧
      (∃ bj ∈ haloBounds st.2 hy north, p.2 = bj.at e.jS e.jE) := by
  simp only [InCorner, disp, vertex, beyond_iff]

theorem filled_of_check {e : Ext} {dom : Int → Int → Bool} {nk : Nat} {env : Coef → K}
    {bind : Param → Nat} {tbl : List Stmt} {dst src : Param} {dir : Direction} {st st' : Stagger}
    {hx hy : Nat} {coef : Bool → Bool → Coef} (mem : Nat → Storage K) (hn : AtLeast e 1)
    (hr : NoReadWritten e bind tbl)
    (ho : outerTable tbl = true) (hd : ∀ t ∈ tbl, bind dst = bind t.dst → dst = t.dst)
    (hf : checkFill tbl dst src dir st st' hx hy coef = true) :
    ∀ east north p p', InCorner e st hx hy east north p → IsSource e dir st st' east north p p' →
    dom p.1 p.2 = true → ∀ k, k < nk →
    run e dom nk env bind tbl mem (bind dst) p.1 p.2 k =
      scale env (coef east north) (mem (bind src) p'.1 p'.2 k) := by
  intro east north p p' hp hs hdom k hk
  obtain ⟨⟨bi, hbi, hi⟩, bj, hbj, hj⟩ := inCorner_iff.mp hp
  rw [run_eq _ _ _ _ _ _ _ hr, if_pos ⟨hdom, hk⟩, hi, hj,
    lastWrite_eq_lookup hn ho hd (haloBounds_outer hbi) (haloBounds_outer hbj)]
  have h1 := List.all_eq_true.mp hf east (by cases east <;> simp)
  have h2 := List.all_eq_true.mp h1 north (by cases north <;> simp)
  have h3 := List.all_eq_true.mp (List.all_eq_true.mp h2 bi hbi) bj hbj
  cases hl : lookup tbl dst bi bj with
  | none => rw [hl] at h3; simp at h3
  | some t =>
    rw [hl] at h3
    simp only [Bool.and_eq_true, decide_eq_true_eq] at h3
    obtain ⟨⟨⟨h4, h5⟩, h6⟩, h7⟩ := h3
    have hsrc : IsSource e dir st st' east north p
        (bi.at e.iS e.iE + t.off.1, bj.at e.jS e.jE + t.off.2) := by
      have e1 : disp e st east north p = (symDisp st.1 bi, symDisp st.2 bj) := by
        have a1 := symDisp_spec st.1 hx east e.iS e.iE bi hbi 0 st.1
        have a2 := symDisp_spec st.2 hy north e.jS e.jE bj hbj 0 st.2
        simp only [Int.add_zero, Int.mul_zero] at a1 a2
        simp only [disp, vertex, hi, hj, a1, a2]
      have e2 : disp e st' east north (bi.at e.iS e.iE + t.off.1, bj.at e.jS e.jE + t.off.2) =
          (symDisp st'.1 bi + 2 * t.off.1, symDisp st'.2 bj + 2 * t.off.2) := by
        have a1 := symDisp_spec st.1 hx east e.iS e.iE bi hbi t.off.1 st'.1
        have a2 := symDisp_spec st.2 hy north e.jS e.jE bj hbj t.off.2 st'.2
        simp only [disp, vertex, a1, a2]
      simp only [IsSource, e1, e2]
      refine ⟨h6, ?_⟩
      cases dir <;> simpa using h7
    have := source_unique hs hsrc
    subst this
    simp only [h4, h5]

theorem unchanged_of_check {e : Ext} {dom : Int → Int → Bool} {nk : Nat} {env : Coef → K}
    {bind : Param → Nat} {tbl : List Stmt} {dst : Param} {st : Stagger}
    {hx hy : Nat} (mem : Nat → Storage K)
    (hr : NoReadWritten e bind tbl)
    (hd : ∀ t ∈ tbl, bind dst = bind t.dst → dst = t.dst)
    (hf : checkOnly tbl dst st hx hy = true) :
    ∀ p k, (∀ east north, ¬ InCorner e st hx hy east north p) ∨ dom p.1 p.2 = false ∨ nk ≤ k →
    run e dom nk env bind tbl mem (bind dst) p.1 p.2 k = mem (bind dst) p.1 p.2 k := by
  intro p k h
  rw [run_eq _ _ _ _ _ _ _ hr]
  by_cases hdk : dom p.1 p.2 = true ∧ k < nk
  · rw [if_pos hdk]
    have hnc : ∀ east north, ¬ InCorner e st hx hy east north p := by
      rcases h with h | h | h
      · exact h
      · rw [h] at hdk; simp at hdk
      · omega
    rw [lastWrite_none]
    intro t ht hb
    have h1 := List.all_eq_true.mp hf t ht
    rw [if_pos (hd t ht hb).symm] at h1
    cases hreg : t.regs with
    | none => rw [hreg] at h1; simp at h1
    | some rs =>
      rw [hreg] at h1
      simp only [inRegs, List.any_eq_false, Bool.and_eq_true, decide_eq_true_eq, not_and]
      intro r hr1 he1 he2
      have h2 := List.all_eq_true.mp h1 r hr1
      simp only [List.any_eq_true, Bool.and_eq_true, List.contains_iff_mem] at h2
      obtain ⟨east, _, north, _, h3, h4⟩ := h2
      exact hnc east north (inCorner_iff.mpr ⟨⟨_, h3, he1⟩, _, h4, he2⟩)
  · rw [if_neg hdk]

theorem other_storage {e : Ext} {dom : Int → Int → Bool} {nk : Nat} {env : Coef → K}
    {bind : Param → Nat} {tbl : List Stmt} (mem : Nat → Storage K) {s : Nat}
    (h : ∀ t ∈ tbl, s ≠ bind t.dst) : run e dom nk env bind tbl mem s = mem s := by
  unfold run
  induction tbl generalizing mem with
  | nil => rfl
  | cons t l ih =>
    rw [List.foldl_cons, ih _ (fun t ht => h t (List.mem_cons_of_mem _ ht))]
    funext i j k
    rw [exec, if_neg (fun hc => h t (List.mem_cons_self ..) hc.1)]

end NDSL.Corner
