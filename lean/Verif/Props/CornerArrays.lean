import Verif.Lemmas.CornerArrays
import Verif.Props.CornerStencils
import Verif.Props.GridIndexing

/-! Property C51: the array corner fills copy by a quarter turn, for every halo width, and agree
with the stencils. -/
namespace NDSL.Corner

open Indexing

variable {K : Type} [Mul K]

theorem mem_corners4 {g : GridIndexing} {sw nw se ne : List PA} {b : PA} :
    b ∈ corners4 g sw nw se ne ↔ (swCorner g = true ∧ b ∈ sw) ∨ (nwCorner g = true ∧ b ∈ nw) ∨
      (seCorner g = true ∧ b ∈ se) ∨ (neCorner g = true ∧ b ∈ ne) := by
  unfold corners4
  cases swCorner g <;> cases nwCorner g <;> cases seCorner g <;> cases neCorner g <;>
    simp [or_assoc]

theorem has_sw (g : GridIndexing) : swCorner g = hasCorner g false false := by
  simp [swCorner, hasCorner, Bool.and_comm]
theorem has_nw (g : GridIndexing) : nwCorner g = hasCorner g false true := by
  simp [nwCorner, hasCorner, Bool.and_comm]
theorem has_se (g : GridIndexing) : seCorner g = hasCorner g true false := by
  simp [seCorner, hasCorner, Bool.and_comm]
theorem has_ne (g : GridIndexing) : neCorner g = hasCorner g true true := by
  simp [neCorner, hasCorner, Bool.and_comm]

/-- Unfold the geometry and finish by arithmetic. -/
macro "corner_arith" : tactic => `(tactic| (
  (try simp [InCorner, Beyond, IsSource, SameSide, turnLeft, turnRight, disp, vertex, gridExt,
    Place.pos, GridIndexing.isc, GridIndexing.iec, GridIndexing.jsc, GridIndexing.jec,
    GridIndexing.origin, *] at *) <;> (try omega)))

/-- **C51** (A grid, x direction): `fill_corners_2d(q, grid_indexer, "A", "i")` fills the halo corners of any
width in place. -/
theorem C51_agrid_x (g : GridIndexing) (rows : Int) (one : K) (mem : Arr → Storage K) (n : Nat)
    (hh : g.nHalo = n) (hn1 : AtLeast (gridExt g) 1) (hn : AtLeast (gridExt g) n) :
    FilledAt g (kslice g) .x (.centre, .centre) (.centre, .centre) n (fun _ _ v => v) (mem .x) (mem .x)
      (fillCorners2dA g rows true one mem .x) := by
  have hn' : g.nHalo.toNat = n := by omega
  unfold fillCorners2dA
  rw [hn']
  refine filledAt_of g n rows (kslice g) one (agridArray g n true) (fun _ => (.centre, .centre)) (fun _ => .x)
    (fun _ _ => false) hn1 hn ?_ mem .x .x ?_ ?_
  · intro b hb
    obtain ⟨i, j, h1, h2, h3, h4, hb⟩ := mem_loop2.mp hb
    rw [mem_corners4] at hb
    simp only [agridSW, agridNW, agridSE, agridNE, if_true, if_false, Bool.false_eq_true, List.mem_singleton] at hb
    rcases hb with ⟨h, rfl⟩ | ⟨h, rfl⟩ | ⟨h, rfl⟩ | ⟨h, rfl⟩
    · refine ⟨rfl, false, false, by rw [← has_sw]; exact h, ?_, ?_, rfl⟩ <;>
        clear hn1 hn h <;> corner_arith
    · refine ⟨rfl, false, true, by rw [← has_nw]; exact h, ?_, ?_, rfl⟩ <;>
        clear hn1 hn h <;> corner_arith
    · refine ⟨rfl, true, false, by rw [← has_se]; exact h, ?_, ?_, rfl⟩ <;>
        clear hn1 hn h <;> corner_arith
    · refine ⟨rfl, true, true, by rw [← has_ne]; exact h, ?_, ?_, rfl⟩ <;>
        clear hn1 hn h <;> corner_arith
  · intro b hb _
    obtain ⟨i, j, h1, h2, h3, h4, hb⟩ := mem_loop2.mp hb
    rw [mem_corners4] at hb
    simp only [agridSW, agridNW, agridSE, agridNE, if_true, if_false, Bool.false_eq_true, List.mem_singleton] at hb
    rcases hb with ⟨h, rfl⟩ | ⟨h, rfl⟩ | ⟨h, rfl⟩ | ⟨h, rfl⟩ <;> rfl
  · intro east north p hc hp
    obtain ⟨p1, p2⟩ := p
    cases east <;> cases north
    · refine ⟨_, mem_loop2.mpr ⟨g.isc - p1, g.jsc - p2, ?_, ?_, ?_, ?_, mem_corners4.mpr
        (Or.inl ⟨by rw [has_sw]; exact hc, List.mem_singleton.mpr rfl⟩)⟩, rfl, ?_⟩ <;>
        clear hn1 hn hc <;> corner_arith
    · refine ⟨_, mem_loop2.mpr ⟨g.isc - p1, p2 - g.jec, ?_, ?_, ?_, ?_, mem_corners4.mpr
        ((Or.inr ∘ Or.inl) ⟨by rw [has_nw]; exact hc, List.mem_singleton.mpr rfl⟩)⟩, rfl, ?_⟩ <;>
        clear hn1 hn hc <;> corner_arith
    · refine ⟨_, mem_loop2.mpr ⟨p1 - g.iec, g.jsc - p2, ?_, ?_, ?_, ?_, mem_corners4.mpr
        ((Or.inr ∘ Or.inr ∘ Or.inl) ⟨by rw [has_se]; exact hc, List.mem_singleton.mpr rfl⟩)⟩, rfl, ?_⟩ <;>
        clear hn1 hn hc <;> corner_arith
    · refine ⟨_, mem_loop2.mpr ⟨p1 - g.iec, p2 - g.jec, ?_, ?_, ?_, ?_, mem_corners4.mpr
        ((Or.inr ∘ Or.inr ∘ Or.inr) ⟨by rw [has_ne]; exact hc, List.mem_singleton.mpr rfl⟩)⟩, rfl, ?_⟩ <;>
        clear hn1 hn hc <;> corner_arith

/-- **C51** (A grid, y direction). -/
theorem C51_agrid_y (g : GridIndexing) (rows : Int) (one : K) (mem : Arr → Storage K) (n : Nat)
    (hh : g.nHalo = n) (hn1 : AtLeast (gridExt g) 1) (hn : AtLeast (gridExt g) n) :
    FilledAt g (kslice g) .y (.centre, .centre) (.centre, .centre) n (fun _ _ v => v) (mem .x) (mem .x)
      (fillCorners2dA g rows false one mem .x) := by
  have hn' : g.nHalo.toNat = n := by omega
  unfold fillCorners2dA
  rw [hn']
  refine filledAt_of g n rows (kslice g) one (agridArray g n false) (fun _ => (.centre, .centre)) (fun _ => .y)
    (fun _ _ => false) hn1 hn ?_ mem .x .x ?_ ?_
  · intro b hb
    obtain ⟨i, j, h1, h2, h3, h4, hb⟩ := mem_loop2.mp hb
    rw [mem_corners4] at hb
    simp only [agridSW, agridNW, agridSE, agridNE, if_true, if_false, Bool.false_eq_true, List.mem_singleton] at hb
    rcases hb with ⟨h, rfl⟩ | ⟨h, rfl⟩ | ⟨h, rfl⟩ | ⟨h, rfl⟩
    · refine ⟨rfl, false, false, by rw [← has_sw]; exact h, ?_, ?_, rfl⟩ <;>
        clear hn1 hn h <;> corner_arith
    · refine ⟨rfl, false, true, by rw [← has_nw]; exact h, ?_, ?_, rfl⟩ <;>
        clear hn1 hn h <;> corner_arith
    · refine ⟨rfl, true, false, by rw [← has_se]; exact h, ?_, ?_, rfl⟩ <;>
        clear hn1 hn h <;> corner_arith
    · refine ⟨rfl, true, true, by rw [← has_ne]; exact h, ?_, ?_, rfl⟩ <;>
        clear hn1 hn h <;> corner_arith
  · intro b hb _
    obtain ⟨i, j, h1, h2, h3, h4, hb⟩ := mem_loop2.mp hb
    rw [mem_corners4] at hb
    simp only [agridSW, agridNW, agridSE, agridNE, if_true, if_false, Bool.false_eq_true, List.mem_singleton] at hb
    rcases hb with ⟨h, rfl⟩ | ⟨h, rfl⟩ | ⟨h, rfl⟩ | ⟨h, rfl⟩ <;> rfl
  · intro east north p hc hp
    obtain ⟨p1, p2⟩ := p
    cases east <;> cases north
    · refine ⟨_, mem_loop2.mpr ⟨g.jsc - p2, g.isc - p1, ?_, ?_, ?_, ?_, mem_corners4.mpr
        (Or.inl ⟨by rw [has_sw]; exact hc, List.mem_singleton.mpr rfl⟩)⟩, rfl, ?_⟩ <;>
        clear hn1 hn hc <;> corner_arith
    · refine ⟨_, mem_loop2.mpr ⟨p2 - g.jec, g.isc - p1, ?_, ?_, ?_, ?_, mem_corners4.mpr
        ((Or.inr ∘ Or.inl) ⟨by rw [has_nw]; exact hc, List.mem_singleton.mpr rfl⟩)⟩, rfl, ?_⟩ <;>
        clear hn1 hn hc <;> corner_arith
    · refine ⟨_, mem_loop2.mpr ⟨g.jsc - p2, p1 - g.iec, ?_, ?_, ?_, ?_, mem_corners4.mpr
        ((Or.inr ∘ Or.inr ∘ Or.inl) ⟨by rw [has_se]; exact hc, List.mem_singleton.mpr rfl⟩)⟩, rfl, ?_⟩ <;>
        clear hn1 hn hc <;> corner_arith
    · refine ⟨_, mem_loop2.mpr ⟨p2 - g.jec, p1 - g.iec, ?_, ?_, ?_, ?_, mem_corners4.mpr
        ((Or.inr ∘ Or.inr ∘ Or.inr) ⟨by rw [has_ne]; exact hc, List.mem_singleton.mpr rfl⟩)⟩, rfl, ?_⟩ <;>
        clear hn1 hn hc <;> corner_arith

/-- **C51** (A grid, two components): `fill_corners_agrid`; with `mysign = -1` the signs are those of a
turned vector (`C50_dgrid_vector_signs`). -/
theorem C51_agrid_vector (g : GridIndexing) (rows : Int) (lev : Nat → Bool) (mysign : K)
    (mem : Arr → Storage K) (n : Nat)
    (hh : g.nHalo = n) (hn1 : AtLeast (gridExt g) 1) (hn : AtLeast (gridExt g) n) :
    let mem' := runArr rows lev mysign (agridVector g n) mem
    let f : Bool → Bool → K → K := fun east north v => if east = north then mysign * v else v
    FilledAt g lev .x (.centre, .centre) (.centre, .centre) n f (mem .y) (mem .x) (mem' .x) ∧
    FilledAt g lev .y (.centre, .centre) (.centre, .centre) n f (mem .x) (mem .y) (mem' .y) := by
  intro mem' f
  have hf : f = fun east north v => if (decide (east = north)) then mysign * v else v := by
    funext a b v; cases a <;> cases b <;> rfl
  rw [hf]
  let st : Arr → Stagger := fun a => match a with | .x => (.centre, .centre) | .y => (.centre, .centre)
  let dir : Arr → Direction := fun a => match a with | .x => .x | .y => .y
  have H := fun s s' hss h2 => filledAt_of g n rows lev mysign (agridVector g n) st dir
    (fun east north => decide (east = north)) hn1 hn (by
    intro b hb
    obtain ⟨i, j, h1, h2, h3, h4, hb⟩ := mem_loop2.mp hb
    rw [mem_corners4] at hb
    simp only [List.mem_cons, List.not_mem_nil, or_false] at hb
    rcases hb with ⟨h, rfl | rfl⟩ | ⟨h, rfl | rfl⟩ | ⟨h, rfl | rfl⟩ | ⟨h, rfl | rfl⟩
    · refine ⟨rfl, false, false, by rw [← has_sw]; exact h, ?_, ?_, rfl⟩ <;>
        clear hn1 hn h <;> simp only [st, dir] <;> corner_arith
    · refine ⟨rfl, false, false, by rw [← has_sw]; exact h, ?_, ?_, rfl⟩ <;>
        clear hn1 hn h <;> simp only [st, dir] <;> corner_arith
    · refine ⟨rfl, false, true, by rw [← has_nw]; exact h, ?_, ?_, rfl⟩ <;>
        clear hn1 hn h <;> simp only [st, dir] <;> corner_arith
    · refine ⟨rfl, false, true, by rw [← has_nw]; exact h, ?_, ?_, rfl⟩ <;>
        clear hn1 hn h <;> simp only [st, dir] <;> corner_arith
    · refine ⟨rfl, true, false, by rw [← has_se]; exact h, ?_, ?_, rfl⟩ <;>
        clear hn1 hn h <;> simp only [st, dir] <;> corner_arith
    · refine ⟨rfl, true, false, by rw [← has_se]; exact h, ?_, ?_, rfl⟩ <;>
        clear hn1 hn h <;> simp only [st, dir] <;> corner_arith
    · refine ⟨rfl, true, true, by rw [← has_ne]; exact h, ?_, ?_, rfl⟩ <;>
        clear hn1 hn h <;> simp only [st, dir] <;> corner_arith
    · refine ⟨rfl, true, true, by rw [← has_ne]; exact h, ?_, ?_, rfl⟩ <;>
        clear hn1 hn h <;> simp only [st, dir] <;> corner_arith) mem s s' hss h2
  have hss : ∀ b ∈ agridVector g n, b.src = match b.dst with | .x => .y | .y => .x := by
    intro b hb
    obtain ⟨i, j, h1, h2, h3, h4, hb⟩ := mem_loop2.mp hb
    rw [mem_corners4] at hb
    simp only [List.mem_cons, List.not_mem_nil, or_false] at hb
    rcases hb with ⟨h, rfl | rfl⟩ | ⟨h, rfl | rfl⟩ | ⟨h, rfl | rfl⟩ | ⟨h, rfl | rfl⟩ <;> rfl
  refine ⟨H .x .y (fun b hb h => by rw [hss b hb, h]) ?_,
    H .y .x (fun b hb h => by rw [hss b hb, h]) ?_⟩
  · intro east north p hc hp
    obtain ⟨p1, p2⟩ := p
    cases east <;> cases north
    · refine ⟨_, mem_loop2.mpr ⟨g.isc - p1, g.jsc - p2, ?_, ?_, ?_, ?_, mem_corners4.mpr
        (Or.inl ⟨by rw [has_sw]; exact hc, List.mem_cons_self ..⟩)⟩, rfl, ?_⟩ <;>
        clear hn1 hn hc H <;> simp only [st] at * <;> corner_arith
    · refine ⟨_, mem_loop2.mpr ⟨g.isc - p1, p2 - g.jec, ?_, ?_, ?_, ?_, mem_corners4.mpr
        ((Or.inr ∘ Or.inl) ⟨by rw [has_nw]; exact hc, List.mem_cons_self ..⟩)⟩, rfl, ?_⟩ <;>
        clear hn1 hn hc H <;> simp only [st] at * <;> corner_arith
    · refine ⟨_, mem_loop2.mpr ⟨p1 - g.iec, g.jsc - p2, ?_, ?_, ?_, ?_, mem_corners4.mpr
        ((Or.inr ∘ Or.inr ∘ Or.inl) ⟨by rw [has_se]; exact hc, List.mem_cons_self ..⟩)⟩, rfl, ?_⟩ <;>
        clear hn1 hn hc H <;> simp only [st] at * <;> corner_arith
    · refine ⟨_, mem_loop2.mpr ⟨p1 - g.iec, p2 - g.jec, ?_, ?_, ?_, ?_, mem_corners4.mpr
        ((Or.inr ∘ Or.inr ∘ Or.inr) ⟨by rw [has_ne]; exact hc, List.mem_cons_self ..⟩)⟩, rfl, ?_⟩ <;>
        clear hn1 hn hc H <;> simp only [st] at * <;> corner_arith
  · intro east north p hc hp
    obtain ⟨p1, p2⟩ := p
    cases east <;> cases north
    · refine ⟨_, mem_loop2.mpr ⟨g.jsc - p2, g.isc - p1, ?_, ?_, ?_, ?_, mem_corners4.mpr
        (Or.inl ⟨by rw [has_sw]; exact hc, List.mem_cons_of_mem _ (List.mem_singleton.mpr rfl)⟩)⟩, rfl, ?_⟩ <;>
        clear hn1 hn hc H <;> simp only [st] at * <;> corner_arith
    · refine ⟨_, mem_loop2.mpr ⟨p2 - g.jec, g.isc - p1, ?_, ?_, ?_, ?_, mem_corners4.mpr
        ((Or.inr ∘ Or.inl) ⟨by rw [has_nw]; exact hc, List.mem_cons_of_mem _ (List.mem_singleton.mpr rfl)⟩)⟩, rfl, ?_⟩ <;>
        clear hn1 hn hc H <;> simp only [st] at * <;> corner_arith
    · refine ⟨_, mem_loop2.mpr ⟨g.jsc - p2, p1 - g.iec, ?_, ?_, ?_, ?_, mem_corners4.mpr
        ((Or.inr ∘ Or.inr ∘ Or.inl) ⟨by rw [has_se]; exact hc, List.mem_cons_of_mem _ (List.mem_singleton.mpr rfl)⟩)⟩, rfl, ?_⟩ <;>
        clear hn1 hn hc H <;> simp only [st] at * <;> corner_arith
    · refine ⟨_, mem_loop2.mpr ⟨p2 - g.jec, p1 - g.iec, ?_, ?_, ?_, ?_, mem_corners4.mpr
        ((Or.inr ∘ Or.inr ∘ Or.inr) ⟨by rw [has_ne]; exact hc, List.mem_cons_of_mem _ (List.mem_singleton.mpr rfl)⟩)⟩, rfl, ?_⟩ <;>
        clear hn1 hn hc H <;> simp only [st] at * <;> corner_arith

/-- **C51** (D grid): `fill_corners_dgrid`, for a halo of three points. Missing: other halo widths, for
which the function is wrong (`C51_dgrid_halo_violated`). -/
theorem C51_dgrid_vector_partial (g : GridIndexing) (rows : Int) (lev : Nat → Bool) (mysign : K)
    (mem : Arr → Storage K) (n : Nat)
    (hh : g.nHalo = 3) (h3 : n = 3) (hn1 : AtLeast (gridExt g) 1) (hn : AtLeast (gridExt g) n) :
    let mem' := runArr rows lev mysign (dgridVector g n) mem
    let f : Bool → Bool → K → K := fun east north v => if east = north then mysign * v else v
    FilledAt g lev .x (.centre, .edge) (.edge, .centre) n f (mem .y) (mem .x) (mem' .x) ∧
    FilledAt g lev .y (.edge, .centre) (.centre, .edge) n f (mem .x) (mem .y) (mem' .y) := by
  intro mem' f
  have hf : f = fun east north v => if (decide (east = north)) then mysign * v else v := by
    funext a b v; cases a <;> cases b <;> rfl
  rw [hf]
  let st : Arr → Stagger := fun a => match a with | .x => (.centre, .edge) | .y => (.edge, .centre)
  let dir : Arr → Direction := fun a => match a with | .x => .x | .y => .y
  have H := fun s s' hss h2 => filledAt_of g n rows lev mysign (dgridVector g n) st dir
    (fun east north => decide (east = north)) hn1 hn (by
    intro b hb
    obtain ⟨i, j, h1, h2, h3, h4, hb⟩ := mem_loop2.mp hb
    rw [mem_corners4] at hb
    simp only [List.mem_cons, List.not_mem_nil, or_false] at hb
    rcases hb with ⟨h, rfl | rfl⟩ | ⟨h, rfl | rfl⟩ | ⟨h, rfl | rfl⟩ | ⟨h, rfl | rfl⟩
    · refine ⟨rfl, false, false, by rw [← has_sw]; exact h, ?_, ?_, rfl⟩ <;>
        clear hn1 hn h <;> simp only [st, dir] <;> corner_arith
    · refine ⟨rfl, false, false, by rw [← has_sw]; exact h, ?_, ?_, rfl⟩ <;>
        clear hn1 hn h <;> simp only [st, dir] <;> corner_arith
    · refine ⟨rfl, false, true, by rw [← has_nw]; exact h, ?_, ?_, rfl⟩ <;>
        clear hn1 hn h <;> simp only [st, dir] <;> corner_arith
    · refine ⟨rfl, false, true, by rw [← has_nw]; exact h, ?_, ?_, rfl⟩ <;>
        clear hn1 hn h <;> simp only [st, dir] <;> corner_arith
    · refine ⟨rfl, true, false, by rw [← has_se]; exact h, ?_, ?_, rfl⟩ <;>
        clear hn1 hn h <;> simp only [st, dir] <;> corner_arith
    · refine ⟨rfl, true, false, by rw [← has_se]; exact h, ?_, ?_, rfl⟩ <;>
        clear hn1 hn h <;> simp only [st, dir] <;> corner_arith
    · refine ⟨rfl, true, true, by rw [← has_ne]; exact h, ?_, ?_, rfl⟩ <;>
        clear hn1 hn h <;> simp only [st, dir] <;> corner_arith
    · refine ⟨rfl, true, true, by rw [← has_ne]; exact h, ?_, ?_, rfl⟩ <;>
        clear hn1 hn h <;> simp only [st, dir] <;> corner_arith) mem s s' hss h2
  have hss : ∀ b ∈ dgridVector g n, b.src = match b.dst with | .x => .y | .y => .x := by
    intro b hb
    obtain ⟨i, j, h1, h2, h3, h4, hb⟩ := mem_loop2.mp hb
    rw [mem_corners4] at hb
    simp only [List.mem_cons, List.not_mem_nil, or_false] at hb
    rcases hb with ⟨h, rfl | rfl⟩ | ⟨h, rfl | rfl⟩ | ⟨h, rfl | rfl⟩ | ⟨h, rfl | rfl⟩ <;> rfl
  refine ⟨H .x .y (fun b hb h => by rw [hss b hb, h]) ?_,
    H .y .x (fun b hb h => by rw [hss b hb, h]) ?_⟩
  · intro east north p hc hp
    obtain ⟨p1, p2⟩ := p
    cases east <;> cases north
    · refine ⟨_, mem_loop2.mpr ⟨g.isc - p1, g.jsc - p2, ?_, ?_, ?_, ?_, mem_corners4.mpr
        (Or.inl ⟨by rw [has_sw]; exact hc, List.mem_cons_self ..⟩)⟩, rfl, ?_⟩ <;>
        clear hn1 hn hc H <;> simp only [st] at * <;> corner_arith
    · refine ⟨_, mem_loop2.mpr ⟨g.isc - p1, p2 - g.jec - 1, ?_, ?_, ?_, ?_, mem_corners4.mpr
        ((Or.inr ∘ Or.inl) ⟨by rw [has_nw]; exact hc, List.mem_cons_self ..⟩)⟩, rfl, ?_⟩ <;>
        clear hn1 hn hc H <;> simp only [st] at * <;> corner_arith
    · refine ⟨_, mem_loop2.mpr ⟨p1 - g.iec, g.jsc - p2, ?_, ?_, ?_, ?_, mem_corners4.mpr
        ((Or.inr ∘ Or.inr ∘ Or.inl) ⟨by rw [has_se]; exact hc, List.mem_cons_self ..⟩)⟩, rfl, ?_⟩ <;>
        clear hn1 hn hc H <;> simp only [st] at * <;> corner_arith
    · refine ⟨_, mem_loop2.mpr ⟨p1 - g.iec, p2 - g.jec - 1, ?_, ?_, ?_, ?_, mem_corners4.mpr
        ((Or.inr ∘ Or.inr ∘ Or.inr) ⟨by rw [has_ne]; exact hc, List.mem_cons_self ..⟩)⟩, rfl, ?_⟩ <;>
        clear hn1 hn hc H <;> simp only [st] at * <;> corner_arith
  · intro east north p hc hp
    obtain ⟨p1, p2⟩ := p
    cases east <;> cases north
    · refine ⟨_, mem_loop2.mpr ⟨g.isc - p1, g.jsc - p2, ?_, ?_, ?_, ?_, mem_corners4.mpr
        (Or.inl ⟨by rw [has_sw]; exact hc, List.mem_cons_of_mem _ (List.mem_singleton.mpr rfl)⟩)⟩, rfl, ?_⟩ <;>
        clear hn1 hn hc H <;> simp only [st] at * <;> corner_arith
    · refine ⟨_, mem_loop2.mpr ⟨g.isc - p1, p2 - g.jec, ?_, ?_, ?_, ?_, mem_corners4.mpr
        ((Or.inr ∘ Or.inl) ⟨by rw [has_nw]; exact hc, List.mem_cons_of_mem _ (List.mem_singleton.mpr rfl)⟩)⟩, rfl, ?_⟩ <;>
        clear hn1 hn hc H <;> simp only [st] at * <;> corner_arith
    · refine ⟨_, mem_loop2.mpr ⟨p1 - g.iec - 1, g.jsc - p2, ?_, ?_, ?_, ?_, mem_corners4.mpr
        ((Or.inr ∘ Or.inr ∘ Or.inl) ⟨by rw [has_se]; exact hc, List.mem_cons_of_mem _ (List.mem_singleton.mpr rfl)⟩)⟩, rfl, ?_⟩ <;>
        clear hn1 hn hc H <;> simp only [st] at * <;> corner_arith
    · refine ⟨_, mem_loop2.mpr ⟨p1 - g.iec - 1, p2 - g.jec, ?_, ?_, ?_, ?_, mem_corners4.mpr
        ((Or.inr ∘ Or.inr ∘ Or.inr) ⟨by rw [has_ne]; exact hc, List.mem_cons_of_mem _ (List.mem_singleton.mpr rfl)⟩)⟩, rfl, ?_⟩ <;>
        clear hn1 hn hc H <;> simp only [st] at * <;> corner_arith

/-- **C51** (C grid): `fill_corners_cgrid`, for a halo of three points. Missing: other halo widths. -/
theorem C51_cgrid_vector_partial (g : GridIndexing) (rows : Int) (lev : Nat → Bool) (mysign : K)
    (mem : Arr → Storage K) (n : Nat)
    (hh : g.nHalo = 3) (h3 : n = 3) (hn1 : AtLeast (gridExt g) 1) (hn : AtLeast (gridExt g) n) :
    let mem' := runArr rows lev mysign (cgridVector g n) mem
    let f : Bool → Bool → K → K := fun east north v => if east ≠ north then mysign * v else v
    FilledAt g lev .y (.edge, .centre) (.centre, .edge) n f (mem .y) (mem .x) (mem' .x) ∧
    FilledAt g lev .x (.centre, .edge) (.edge, .centre) n f (mem .x) (mem .y) (mem' .y) := by
  intro mem' f
  have hf : f = fun east north v => if (decide (east ≠ north)) then mysign * v else v := by
    funext a b v; cases a <;> cases b <;> rfl
  rw [hf]
  let st : Arr → Stagger := fun a => match a with | .x => (.edge, .centre) | .y => (.centre, .edge)
  let dir : Arr → Direction := fun a => match a with | .x => .y | .y => .x
  have H := fun s s' hss h2 => filledAt_of g n rows lev mysign (cgridVector g n) st dir
    (fun east north => decide (east ≠ north)) hn1 hn (by
    intro b hb
    obtain ⟨i, j, h1, h2, h3, h4, hb⟩ := mem_loop2.mp hb
    rw [mem_corners4] at hb
    simp only [List.mem_cons, List.not_mem_nil, or_false] at hb
    rcases hb with ⟨h, rfl | rfl⟩ | ⟨h, rfl | rfl⟩ | ⟨h, rfl | rfl⟩ | ⟨h, rfl | rfl⟩
    · refine ⟨rfl, false, false, by rw [← has_sw]; exact h, ?_, ?_, rfl⟩ <;>
        clear hn1 hn h <;> simp only [st, dir] <;> corner_arith
    · refine ⟨rfl, false, false, by rw [← has_sw]; exact h, ?_, ?_, rfl⟩ <;>
        clear hn1 hn h <;> simp only [st, dir] <;> corner_arith
    · refine ⟨rfl, false, true, by rw [← has_nw]; exact h, ?_, ?_, rfl⟩ <;>
        clear hn1 hn h <;> simp only [st, dir] <;> corner_arith
    · refine ⟨rfl, false, true, by rw [← has_nw]; exact h, ?_, ?_, rfl⟩ <;>
        clear hn1 hn h <;> simp only [st, dir] <;> corner_arith
    · refine ⟨rfl, true, false, by rw [← has_se]; exact h, ?_, ?_, rfl⟩ <;>
        clear hn1 hn h <;> simp only [st, dir] <;> corner_arith
    · refine ⟨rfl, true, false, by rw [← has_se]; exact h, ?_, ?_, rfl⟩ <;>
        clear hn1 hn h <;> simp only [st, dir] <;> corner_arith
    · refine ⟨rfl, true, true, by rw [← has_ne]; exact h, ?_, ?_, rfl⟩ <;>
        clear hn1 hn h <;> simp only [st, dir] <;> corner_arith
    · refine ⟨rfl, true, true, by rw [← has_ne]; exact h, ?_, ?_, rfl⟩ <;>
        clear hn1 hn h <;> simp only [st, dir] <;> corner_arith) mem s s' hss h2
  have hss : ∀ b ∈ cgridVector g n, b.src = match b.dst with | .x => .y | .y => .x := by
    intro b hb
    obtain ⟨i, j, h1, h2, h3, h4, hb⟩ := mem_loop2.mp hb
    rw [mem_corners4] at hb
    simp only [List.mem_cons, List.not_mem_nil, or_false] at hb
    rcases hb with ⟨h, rfl | rfl⟩ | ⟨h, rfl | rfl⟩ | ⟨h, rfl | rfl⟩ | ⟨h, rfl | rfl⟩ <;> rfl
  refine ⟨H .x .y (fun b hb h => by rw [hss b hb, h]) ?_,
    H .y .x (fun b hb h => by rw [hss b hb, h]) ?_⟩
  · intro east north p hc hp
    obtain ⟨p1, p2⟩ := p
    cases east <;> cases north
    · refine ⟨_, mem_loop2.mpr ⟨g.isc - p1, g.jsc - p2, ?_, ?_, ?_, ?_, mem_corners4.mpr
        (Or.inl ⟨by rw [has_sw]; exact hc, List.mem_cons_self ..⟩)⟩, rfl, ?_⟩ <;>
        clear hn1 hn hc H <;> simp only [st] at * <;> corner_arith
    · refine ⟨_, mem_loop2.mpr ⟨g.isc - p1, p2 - g.jec, ?_, ?_, ?_, ?_, mem_corners4.mpr
        ((Or.inr ∘ Or.inl) ⟨by rw [has_nw]; exact hc, List.mem_cons_self ..⟩)⟩, rfl, ?_⟩ <;>
        clear hn1 hn hc H <;> simp only [st] at * <;> corner_arith
    · refine ⟨_, mem_loop2.mpr ⟨p1 - g.iec - 1, g.jsc - p2, ?_, ?_, ?_, ?_, mem_corners4.mpr
        ((Or.inr ∘ Or.inr ∘ Or.inl) ⟨by rw [has_se]; exact hc, List.mem_cons_self ..⟩)⟩, rfl, ?_⟩ <;>
        clear hn1 hn hc H <;> simp only [st] at * <;> corner_arith
    · refine ⟨_, mem_loop2.mpr ⟨p1 - g.iec - 1, p2 - g.jec, ?_, ?_, ?_, ?_, mem_corners4.mpr
        ((Or.inr ∘ Or.inr ∘ Or.inr) ⟨by rw [has_ne]; exact hc, List.mem_cons_self ..⟩)⟩, rfl, ?_⟩ <;>
        clear hn1 hn hc H <;> simp only [st] at * <;> corner_arith
  · intro east north p hc hp
    obtain ⟨p1, p2⟩ := p
    cases east <;> cases north
    · refine ⟨_, mem_loop2.mpr ⟨g.isc - p1, g.jsc - p2, ?_, ?_, ?_, ?_, mem_corners4.mpr
        (Or.inl ⟨by rw [has_sw]; exact hc, List.mem_cons_of_mem _ (List.mem_singleton.mpr rfl)⟩)⟩, rfl, ?_⟩ <;>
        clear hn1 hn hc H <;> simp only [st] at * <;> corner_arith
    · refine ⟨_, mem_loop2.mpr ⟨g.isc - p1, p2 - g.jec - 1, ?_, ?_, ?_, ?_, mem_corners4.mpr
        ((Or.inr ∘ Or.inl) ⟨by rw [has_nw]; exact hc, List.mem_cons_of_mem _ (List.mem_singleton.mpr rfl)⟩)⟩, rfl, ?_⟩ <;>
        clear hn1 hn hc H <;> simp only [st] at * <;> corner_arith
    · refine ⟨_, mem_loop2.mpr ⟨p1 - g.iec, g.jsc - p2, ?_, ?_, ?_, ?_, mem_corners4.mpr
        ((Or.inr ∘ Or.inr ∘ Or.inl) ⟨by rw [has_se]; exact hc, List.mem_cons_of_mem _ (List.mem_singleton.mpr rfl)⟩)⟩, rfl, ?_⟩ <;>
        clear hn1 hn hc H <;> simp only [st] at * <;> corner_arith
    · refine ⟨_, mem_loop2.mpr ⟨p1 - g.iec, p2 - g.jec - 1, ?_, ?_, ?_, ?_, mem_corners4.mpr
        ((Or.inr ∘ Or.inr ∘ Or.inr) ⟨by rw [has_ne]; exact hc, List.mem_cons_of_mem _ (List.mem_singleton.mpr rfl)⟩)⟩, rfl, ?_⟩ <;>
        clear hn1 hn hc H <;> simp only [st] at * <;> corner_arith

/-- The assignment of one iteration of the B grid fill in x direction to a corner. -/
def bgridAt (g : GridIndexing) (i j : Int) (east north : Bool) : PA :=
  match east, north with
  | false, false => { dst := .x, di := g.isc - i, dj := g.jsc - j, src := .x, si := g.isc - j, sj := g.jsc + i }
  | false, true => { dst := .x, di := g.isc - i, dj := g.jec + 1 + j, src := .x, si := g.isc - j, sj := g.jec + 1 - i }
  | true, false => { dst := .x, di := g.iec + 1 + i, dj := g.jsc - j, src := .x, si := g.iec + 1 + j, sj := g.jsc + i }
  | true, true => { dst := .x, di := g.iec + 1 + i, dj := g.jec + 1 + j, src := .x, si := g.iec + 1 + j, sj := g.jec + 1 - i, rowsFrom := true }

/-- Membership in one iteration of the B grid fill. -/
theorem mem_bgrid {g : GridIndexing} {dir : Bool} {i j : Int} {b : PA}
    (hb : b ∈ corners4 g (bgridSW g dir i j) (bgridNW g dir i j) (bgridSE g dir i j)
      (bgridNE g dir i j)) :
    (swCorner g = true ∧ b ∈ bgridSW g dir i j) ∨ (nwCorner g = true ∧ b ∈ bgridNW g dir i j) ∨
      (seCorner g = true ∧ b ∈ bgridSE g dir i j) ∨ (neCorner g = true ∧ b ∈ bgridNE g dir i j) :=
  mem_corners4.mp hb

/-- **C51** (B grid, x direction): `fill_corners_2d(q, grid_indexer, "B", "i")` fills the halo
corners of any width in place, when the array has no rows beyond the halo (the fill of the
north-east corner assigns to all the following rows, and later assignments correct them). -/
theorem C51_bgrid_x (g : GridIndexing) (rows : Int) (one : K) (mem : Arr → Storage K) (n : Nat)
    (hh : g.nHalo = n) (hn1 : AtLeast (gridExt g) 1) (hn : AtLeast (gridExt g) n)
    (hrows : rows = g.nHalo + g.domain.2.1 + g.nHalo + 1) :
    FilledAt g (fun _ => true) .x (.edge, .edge) (.edge, .edge) n (fun _ _ v => v) (mem .x) (mem .x)
      (fillCorners2dB g rows true one mem .x) := by
  have hn' : g.nHalo.toNat = n := by omega
  unfold fillCorners2dB
  rw [hn']
  refine filledAt_of_last g n rows (fun _ => true) one (bgridArray g n true) _ .x hn ?_ mem ?_
  · intro b hb
    obtain ⟨i, j, h1, h2, h3, h4, hb⟩ := mem_loop2.mp hb
    have hb := mem_bgrid hb
    simp only [bgridSW, bgridNW, bgridSE, bgridNE, if_true, List.mem_singleton] at hb
    rcases hb with ⟨h, rfl⟩ | ⟨h, rfl⟩ | ⟨h, rfl⟩ | ⟨h, rfl⟩ <;>
      refine ⟨rfl, rfl, fun s i j ht => ?_⟩ <;> simp [PA.targets] at ht
    · refine ⟨false, false, by rw [← has_sw]; exact h, ?_⟩ <;> clear hn1 hn h <;> corner_arith
    · refine ⟨false, true, by rw [← has_nw]; exact h, ?_⟩ <;> clear hn1 hn h <;> corner_arith
    · refine ⟨true, false, by rw [← has_se]; exact h, ?_⟩ <;> clear hn1 hn h <;> corner_arith
    · refine ⟨true, true, by rw [← has_ne]; exact h, ?_⟩ <;> clear hn1 hn h <;> corner_arith
  · intro east north p hc hp
    obtain ⟨p1, p2⟩ := p
    let α : Int := if east then p1 - g.iec - 1 else g.isc - p1
    let β : Int := if north then p2 - g.jec - 1 else g.jsc - p2
    have hα : 1 ≤ α ∧ α ≤ n ∧ 1 ≤ β ∧ β ≤ n := by
      clear hn1 hn hc
      cases east <;> cases north <;> simp only [α, β] <;> corner_arith
    obtain ⟨pre, post, hsplit, hpost⟩ := loop2_split (body := fun i j =>
      corners4 g (bgridSW g true i j) (bgridNW g true i j) (bgridSE g true i j)
        (bgridNE g true i j)) hα.1 hα.2.1 hα.2.2.1 hα.2.2.2
    let a : PA := bgridAt g α β east north
    have ha : a ∈ corners4 g (bgridSW g true α β) (bgridNW g true α β) (bgridSE g true α β)
        (bgridNE g true α β) := by
      rw [mem_corners4, has_sw, has_nw, has_se, has_ne]
      cases east <;> cases north <;> simp only [a, bgridAt, bgridSW, bgridNW, bgridSE, bgridNE, if_true,
        List.mem_singleton] <;> simp [hc]
    obtain ⟨u, v, huv⟩ := List.append_of_mem ha
    refine ⟨pre ++ u, a, v ++ post, ?_, ?_, ?_, ?_⟩
    · show loop2 n _ = _
      rw [hsplit, huv]
      simp
    · clear hn1 hn hc hpost hsplit huv ha
      cases east <;> cases north <;> simp only [a, bgridAt, PA.targets, α, β] <;> corner_arith
    · clear hn1 hn hc hpost hsplit huv ha
      cases east <;> cases north <;> simp only [a, bgridAt, α, β] <;> corner_arith
    · intro b hb hbt
      have hb' : ∃ i' j', (α < i' ∨ (i' = α ∧ β ≤ j')) ∧ i' ≤ n ∧ 1 ≤ j' ∧ j' ≤ n ∧ 
          b ∈ corners4 g (bgridSW g true i' j') (bgridNW g true i' j') (bgridSE g true i' j')
            (bgridNE g true i' j') := by
        rcases List.mem_append.mp hb with hb | hb
        · exact ⟨α, β, Or.inr ⟨rfl, Int.le_refl _⟩, hα.2.1, hα.2.2.1, hα.2.2.2, by
            rw [huv]; simp [hb]⟩
        · obtain ⟨i', j', h5, h6, h7, h8, h9⟩ := hpost b hb
          exact ⟨i', j', by omega, h6, h7, h8, h9⟩
      obtain ⟨i', j', h5, h6, h7, h8, h9⟩ := hb'
      have h9 := mem_bgrid h9
      simp only [bgridSW, bgridNW, bgridSE, bgridNE, if_true, List.mem_singleton] at h9
      have hd1 : 1 ≤ g.domain.1 ∧ 1 ≤ g.domain.2.1 := by
        simp only [AtLeast, gridExt] at hn1; omega
      clear hn hn1 hc hpost hsplit huv ha
      rcases h9 with ⟨h, rfl⟩ | ⟨h, rfl⟩ | ⟨h, rfl⟩ | ⟨h, rfl⟩ <;> clear h <;>
        simp only [PA.targets] at hbt <;> cases east <;> cases north <;>
        simp only [a, bgridAt, α, β] at * <;> corner_arith

/-- **C51** (B grid, y direction): the same in y direction on a rank without a north-east corner.
Missing: the north-east corner, which is filled wrongly (`C51_bgrid_y_violated`). -/
theorem C51_bgrid_y_partial (g : GridIndexing) (rows : Int) (one : K) (mem : Arr → Storage K)
    (n : Nat) (hh : g.nHalo = n) (hn1 : AtLeast (gridExt g) 1) (hn : AtLeast (gridExt g) n)
    (hne : hasCorner g true true = false) :
    FilledAt g (fun _ => true) .y (.edge, .edge) (.edge, .edge) n (fun _ _ v => v) (mem .x) (mem .x)
      (fillCorners2dB g rows false one mem .x) := by
  have hn' : g.nHalo.toNat = n := by omega
  unfold fillCorners2dB
  rw [hn']
  refine filledAt_of g n rows (fun _ => true) one (bgridArray g n false) (fun _ => (.edge, .edge))
    (fun _ => .y) (fun _ _ => false) hn1 hn ?_ mem .x .x ?_ ?_
  · intro b hb
    obtain ⟨i, j, h1, h2, h3, h4, hb⟩ := mem_loop2.mp hb
    have hb := mem_bgrid hb
    simp only [bgridSW, bgridNW, bgridSE, bgridNE, if_false, Bool.false_eq_true,
      List.mem_singleton] at hb
    rcases hb with ⟨h, rfl⟩ | ⟨h, rfl⟩ | ⟨h, rfl⟩ | ⟨h, rfl⟩
    · refine ⟨rfl, false, false, by rw [← has_sw]; exact h, ?_, ?_, rfl⟩ <;>
        clear hn1 hn h hne <;> corner_arith
    · refine ⟨rfl, false, true, by rw [← has_nw]; exact h, ?_, ?_, rfl⟩ <;>
        clear hn1 hn h hne <;> corner_arith
    · refine ⟨rfl, true, false, by rw [← has_se]; exact h, ?_, ?_, rfl⟩ <;>
        clear hn1 hn h hne <;> corner_arith
    · rw [has_ne, hne] at h; cases h
  · intro b hb _
    obtain ⟨i, j, h1, h2, h3, h4, hb⟩ := mem_loop2.mp hb
    have hb := mem_bgrid hb
    simp only [bgridSW, bgridNW, bgridSE, bgridNE, if_false, Bool.false_eq_true,
      List.mem_singleton] at hb
    rcases hb with ⟨h, rfl⟩ | ⟨h, rfl⟩ | ⟨h, rfl⟩ | ⟨h, rfl⟩ <;> rfl
  · intro east north p hc hp
    obtain ⟨p1, p2⟩ := p
    cases east <;> cases north
    · refine ⟨_, mem_loop2.mpr ⟨g.jsc - p2, g.isc - p1, ?_, ?_, ?_, ?_, mem_corners4.mpr
        (Or.inl ⟨by rw [has_sw]; exact hc, List.mem_singleton.mpr rfl⟩)⟩, rfl, ?_⟩ <;>
        clear hn1 hn hc hne <;> corner_arith
    · refine ⟨_, mem_loop2.mpr ⟨p2 - g.jec - 1, g.isc - p1, ?_, ?_, ?_, ?_, mem_corners4.mpr
        ((Or.inr ∘ Or.inl) ⟨by rw [has_nw]; exact hc, List.mem_singleton.mpr rfl⟩)⟩, rfl, ?_⟩ <;>
        clear hn1 hn hc hne <;> corner_arith
    · refine ⟨_, mem_loop2.mpr ⟨g.jsc - p2, p1 - g.iec - 1, ?_, ?_, ?_, ?_, mem_corners4.mpr
        ((Or.inr ∘ Or.inr ∘ Or.inl) ⟨by rw [has_se]; exact hc, List.mem_singleton.mpr rfl⟩)⟩, rfl, ?_⟩ <;>
        clear hn1 hn hc hne <;> corner_arith
    · rw [hne] at hc; cases hc

/-! ### Violations -/

/-- A rank that is a whole tile of four by four cells. -/
def exWhole (n : Int) : GridIndexing := ⟨(4, 4, 1), n, true, true, true, true, 0⟩

/-- An array with different values at all points. -/
def exField : Arr → Storage Int := fun a i j k =>
  (match a with | .x => 0 | .y => 1000000) + 10000 * i + 100 * j + k

/-- **C51**, violation: the y direction B grid fill of the north-east corner mirrors instead of
turning: the point `(8, 9)` gets the value of `(6, 9)`, but its quarter turn is `(5, 8)`. -/
theorem C51_bgrid_y_violated :
    let g := exWhole 3
    hasCorner g true true = true ∧
    InCorner (gridExt g) (.edge, .edge) 3 3 true true (8, 9) ∧
    IsSource (gridExt g) .y (.edge, .edge) (.edge, .edge) true true (8, 9) (5, 8) ∧
    fillCorners2dB g 11 false 1 exField .x 8 9 0 ≠ exField .x 5 8 0 ∧
    fillCorners2dB g 11 false 1 exField .x 8 9 0 = exField .x 6 9 0 := by
  refine ⟨by decide, ?_, ?_, by decide +kernel, by decide +kernel⟩ <;>
    simp [InCorner, Beyond, IsSource, SameSide, turnLeft, turnRight, disp, vertex, gridExt,
      Place.pos, exWhole]

/-- **C51**, violation: the x direction B grid fill overwrites rows beyond the halo, if the array
has any. -/
theorem C51_bgrid_rows_violated :
    let g := exWhole 3
    (∀ east north, ¬ InCorner (gridExt g) (.edge, .edge) 3 3 east north (8, 11)) ∧
    fillCorners2dB g 12 true 1 exField .x 8 11 0 ≠ exField .x 8 11 0 := by
  refine ⟨?_, by decide +kernel⟩
  intro east north
  cases east <;> cases north <;>
  simp [InCorner, Beyond, disp, vertex, gridExt, Place.pos, exWhole]

/-- **C51**, violation: with a halo of two points the D grid fill reads one point too far. -/
theorem C51_dgrid_halo_violated :
    let g := exWhole 2
    InCorner (gridExt g) (.centre, .edge) 2 2 false false (1, 1) ∧
    IsSource (gridExt g) .x (.centre, .edge) (.edge, .centre) false false (1, 1) (1, 2) ∧
    runArr 9 (fun _ => true) (1 : Int) (dgridVector g 2) exField .x 1 1 0 ≠ 1 * exField .y 1 2 0 ∧
    runArr 9 (fun _ => true) (1 : Int) (dgridVector g 2) exField .x 1 1 0 = 1 * exField .y 1 3 0 := by
  refine ⟨?_, ?_, by decide +kernel, by decide +kernel⟩ <;>
    simp [InCorner, Beyond, IsSource, SameSide, turnLeft, turnRight, disp, vertex, gridExt,
      Place.pos, exWhole]

/-- The same for the C grid. -/
theorem C51_cgrid_halo_violated :
    let g := exWhole 2
    InCorner (gridExt g) (.edge, .centre) 2 2 false false (1, 1) ∧
    IsSource (gridExt g) .y (.edge, .centre) (.centre, .edge) false false (1, 1) (2, 1) ∧
    runArr 9 (fun _ => true) (1 : Int) (cgridVector g 2) exField .x 1 1 0 ≠ exField .y 2 1 0 := by
  refine ⟨?_, ?_, by decide +kernel⟩ <;>
    simp [InCorner, Beyond, IsSource, SameSide, turnLeft, turnRight, disp, vertex, gridExt,
      Place.pos, exWhole]

/-! ### Agreement with the stencils -/

/-- The externals a stencil gets on a rank, as absolute indices (`axis_offsets`). -/
def stencilExt (g : GridIndexing) (origin domain : Index3) : Ext :=
  let a := axisOffsets g origin domain
  ⟨a.iStart.absolute origin.1 domain.1, a.iEnd.absolute origin.1 domain.1,
   a.jStart.absolute origin.2.1 domain.2.1, a.jEnd.absolute origin.2.1 domain.2.1⟩

/-- The points a stencil with the given origin and domain computes. -/
def box (origin domain : Index3) (i j : Int) : Bool :=
  decide (origin.1 ≤ i ∧ i < origin.1 + domain.1 ∧ origin.2.1 ≤ j ∧ j < origin.2.1 + domain.2.1)

/-- **C50** (ranks): on every rank, a computed point is in a corner of the tile for the stencil
exactly if the rank has that corner and the point is in the halo beyond it: on other ranks the
corner stencils change nothing. -/
theorem C50_ranks (g : GridIndexing) (origin domain : Index3) (st : Stagger) (hx hy : Nat)
    (hhx : hx ≤ 30000) (hhy : hy ≤ 30000) (east north : Bool) (p : Point)
    (hp : box origin domain p.1 p.2 = true) :
    InCorner (stencilExt g origin domain) st hx hy east north p ↔
      hasCorner g east north = true ∧ InCorner (gridExt g) st hx hy east north p := by
  obtain ⟨p1, p2⟩ := p
  obtain ⟨s1, s2⟩ := st
  simp only [box, decide_eq_true_eq] at hp
  simp only [InCorner, disp, vertex, stencilExt, gridExt, axisOffsets, hasCorner, Beyond,
    GridIndexing.origin, int16Max, Bool.and_eq_true]
  have hP : s1.pos p1 = 2 * p1 ∨ s1.pos p1 = 2 * p1 + 1 := by cases s1 <;> simp [Place.pos]
  have hQ : s2.pos p2 = 2 * p2 ∨ s2.pos p2 = 2 * p2 + 1 := by cases s2 <;> simp [Place.pos]
  generalize s1.pos p1 = P at *
  generalize s2.pos p2 = Q at *
  cases east <;> cases north <;> cases hw : g.westEdge <;> cases hs : g.southEdge <;>
    cases he : g.eastEdge <;> cases hno : g.northEdge <;>
    simp [AxisIndex.absolute] <;> omega

theorem source_ranks (g : GridIndexing) (origin domain : Index3) (dir : Direction)
    (st st' : Stagger) (east north : Bool) (p p' : Point) (h : hasCorner g east north = true) :
    IsSource (stencilExt g origin domain) dir st st' east north p p' ↔
      IsSource (gridExt g) dir st st' east north p p' := by
  have hv : vertex (stencilExt g origin domain) east north = vertex (gridExt g) east north := by
    simp only [hasCorner, Bool.and_eq_true] at h
    obtain ⟨c1, c2, c3, c4⟩ := C70_edges g origin domain
    cases east <;> cases north <;> simp only [if_true, if_false, Bool.false_eq_true] at h <;>
      simp only [vertex, stencilExt, gridExt, if_true, if_false, Bool.false_eq_true]
    · rw [c1 h.1, c3 h.2]
    · rw [c1 h.1, c4 h.2]
    · rw [c2 h.1, c3 h.2]
    · rw [c2 h.1, c4 h.2]
  simp only [IsSource, disp, hv]

/-- Two fills according to the specification agree. -/
theorem agree_of {g : GridIndexing} {origin domain : Index3} {nk : Nat} {lev : Nat → Bool}
    {dir : Direction} {st : Stagger} {h : Nat} {f : Bool → Bool → K → K}
    {src old new new' : Storage K} (hh : h ≤ 30000)
    (hF : Filled (stencilExt g origin domain) (box origin domain) nk dir st (st.2, st.1) h h f
      src old new)
    (hA : FilledAt g lev dir st (st.2, st.1) h f src old new')
    (i j : Int) (k : Nat) (hp : box origin domain i j = true) (hk : k < nk) (hl : lev k = true) :
    new i j k = new' i j k := by
  by_cases hc : ∃ east north, hasCorner g east north = true ∧
      InCorner (gridExt g) st h h east north (i, j)
  · obtain ⟨east, north, h1, h2⟩ := hc
    obtain ⟨p', h3, _, _⟩ := C50_source_exists (gridExt g) dir st h h east north (i, j) h2
    rw [hF.1 east north (i, j) p' ((C50_ranks g origin domain st h h hh hh east north (i, j) hp).mpr
      ⟨h1, h2⟩) ((source_ranks g origin domain dir _ _ east north _ _ h1).mpr h3) hp k hk,
      hA.1 east north (i, j) p' h1 h2 h3 k hl]
  · have hn : ∀ east north, hasCorner g east north = true →
        ¬ InCorner (gridExt g) st h h east north (i, j) := fun east north h1 h2 =>
      hc ⟨east, north, h1, h2⟩
    rw [hF.2 (i, j) k (Or.inl fun east north h2 => ?_), hA.2 (i, j) k (Or.inl hn)]
    have := (C50_ranks g origin domain st h h hh hh east north (i, j) hp).mp h2
    exact hn east north this.1 this.2

theorem stencilExt_atLeast (g : GridIndexing) (origin domain : Index3) (n : Int)
    (hn : AtLeast (gridExt g) n) (h0 : n ≤ 10000) (hh : g.nHalo ≤ 10000)
    (ho : 0 ≤ origin.1 ∧ 0 ≤ origin.2.1 ∧ 0 ≤ domain.1 ∧ 0 ≤ domain.2.1)
    (hi : origin.1 ≤ g.nHalo + g.domain.1 ∧ origin.2.1 ≤ g.nHalo + g.domain.2.1) :
    AtLeast (stencilExt g origin domain) n := by
  simp only [AtLeast, stencilExt, gridExt, axisOffsets, GridIndexing.origin, int16Max] at *
  cases g.westEdge <;> cases g.southEdge <;> cases g.eastEdge <;> cases g.northEdge <;>
    simp [AxisIndex.absolute] <;> omega

/-- **C51** (agreement, B grid): with a halo of three points, on every rank, the array fill in x
direction and `FillCornersBGrid("i")`, both in place, give the same values at the points and levels
the stencil computes. -/
theorem C51_agree_bgrid_x (g : GridIndexing) (origin domain : Index3) (nk : Nat) (rows : Int)
    (env : Coef → K) (q : Storage K) (hh : g.nHalo = 3) (hn : AtLeast (gridExt g) 3)
    (ho : 0 ≤ origin.1 ∧ 0 ≤ origin.2.1 ∧ 0 ≤ domain.1 ∧ 0 ≤ domain.2.1)
    (hi : origin.1 ≤ g.nHalo + g.domain.1 ∧ origin.2.1 ≤ g.nHalo + g.domain.2.1)
    (hrows : rows = g.nHalo + g.domain.2.1 + g.nHalo + 1) (i j : Int) (k : Nat)
    (hp : box origin domain i j = true) (hk : k < nk) :
    run (stencilExt g origin domain) (box origin domain) nk env (fun _ => 0) bgridX (fun _ => q) 0 i j k =
      fillCorners2dB g rows true (env .one) (fun _ => q) .x i j k := by
  have hn1 : AtLeast (gridExt g) 1 := by simp only [AtLeast] at *; omega
  have h3 := stencilExt_atLeast g origin domain 3 hn (by omega) (by omega) ho hi
  have h1 := stencilExt_atLeast g origin domain 1 hn1 (by omega) (by omega) ho hi
  exact agree_of (by omega) (C50_bgrid_x _ _ nk env (fun _ => 0) (fun _ => q) h1 (fun _ => h3)).1
    (C51_bgrid_x g rows (env .one) (fun _ => q) 3 hh hn1 hn hrows) i j k hp hk rfl

/-- **C51** (agreement, A grid): with a halo of three points, on every rank, the array fills of
copies of a field give the outputs of the copy stencil at the points it computes. -/
theorem C51_agree_agrid (g : GridIndexing) (origin domain : Index3) (nk : Nat) (rows : Int)
    (env : Coef → K) (bind : Param → Nat) (mem : Nat → Storage K) (hh : g.nHalo = 3)
    (hn : AtLeast (gridExt g) 3)
    (ho : 0 ≤ origin.1 ∧ 0 ≤ origin.2.1 ∧ 0 ≤ domain.1 ∧ 0 ≤ domain.2.1)
    (hi : origin.1 ≤ g.nHalo + g.domain.1 ∧ origin.2.1 ≤ g.nHalo + g.domain.2.1)
    (hout : bind .qOutX ≠ bind .qOutY) (hx : bind .qIn ≠ bind .qOutX)
    (hy : bind .qIn ≠ bind .qOutY) (i j : Int) (k : Nat)
    (hp : box origin domain i j = true) (hk : k < nk) (hk' : (k : Int) < g.domain.2.2) :
    let mem' := run (stencilExt g origin domain) (box origin domain) nk env bind copyXY mem
    let q : Arr → Storage K := fun _ => mem (bind .qIn)
    mem' (bind .qOutX) i j k = fillCorners2dA g rows true (env .one) q .x i j k ∧
    mem' (bind .qOutY) i j k = fillCorners2dA g rows false (env .one) q .x i j k := by
  intro mem' q
  have hn1 : AtLeast (gridExt g) 1 := by simp only [AtLeast] at *; omega
  have h1 := stencilExt_atLeast g origin domain 1 hn1 (by omega) (by omega) ho hi
  obtain ⟨c1, c2, _⟩ := C50_copy_corners (stencilExt g origin domain) (box origin domain) nk env
    bind mem h1 hout hx hy
  have a1 := C51_agrid_x g rows (env .one) q 3 hh hn1 hn
  have a2 := C51_agrid_y g rows (env .one) q 3 hh hn1 hn
  have hl : kslice g k = true := by simpa [kslice] using hk'
  -- on the computed points the copy equals the input
  have fix : ∀ {dir : Direction} {old new : Storage K},
      (∀ i j k, box origin domain i j = true ∧ k < nk → old i j k = mem (bind .qIn) i j k) →
      Filled (stencilExt g origin domain) (box origin domain) nk dir (.centre, .centre)
        (.centre, .centre) 3 3 (fun _ _ v => v) (mem (bind .qIn)) old new →
      Filled (stencilExt g origin domain) (box origin domain) nk dir (.centre, .centre)
        (.centre, .centre) 3 3 (fun _ _ v => v) (mem (bind .qIn)) (mem (bind .qIn))
        (fun i j k => if box origin domain i j = true ∧ k < nk then new i j k
          else mem (bind .qIn) i j k) := by
    intro dir old new ho hF
    refine ⟨?_, ?_⟩
    · intro east north p p' h1 h2 h3 k hk
      show (if _ then _ else _) = _
      rw [if_pos ⟨h3, hk⟩]
      exact hF.1 east north p p' h1 h2 h3 k hk
    · intro p k h
      show (if _ then _ else _) = _
      by_cases hb : box origin domain p.1 p.2 = true ∧ k < nk
      · rw [if_pos hb, hF.2 p k h, ho _ _ _ hb]
      · rw [if_neg hb]
  have r1 := agree_of (by omega) (fix (fun i j k hb => by simp [hb]) c1) a1 i j k hp hk hl
  have r2 := agree_of (by omega) (fix (fun i j k hb => by simp [hb]) c2) a2 i j k hp hk hl
  simp only [hp, hk, and_self, if_true] at r1 r2
  exact ⟨r1, r2⟩

/-- **C51** (agreement, D grid): with a halo of three points, on every rank, `fill_corners_dgrid`
and the stencil, both in place, give the same values at the points and levels computed. -/
theorem C51_agree_dgrid (g : GridIndexing) (origin domain : Index3) (nk : Nat) (rows : Int)
    (env : Coef → K) (x y : Storage K) (hh : g.nHalo = 3) (hn : AtLeast (gridExt g) 3)
    (ho : 0 ≤ origin.1 ∧ 0 ≤ origin.2.1 ∧ 0 ≤ domain.1 ∧ 0 ≤ domain.2.1)
    (hi : origin.1 ≤ g.nHalo + g.domain.1 ∧ origin.2.1 ≤ g.nHalo + g.domain.2.1)
    (i j : Int) (k : Nat) (hp : box origin domain i j = true) (hk : k < nk) :
    let bind : Param → Nat := fun p => match p with | .xIn | .xOut => 0 | _ => 1
    let mem : Nat → Storage K := fun s => if s = 0 then x else y
    let mem' := run (stencilExt g origin domain) (box origin domain) nk env bind dgrid mem
    let arr := runArr rows (fun _ => true) (env .mysign) (dgridVector g 3)
      (fun a => match a with | .x => x | .y => y)
    mem' 0 i j k = arr .x i j k ∧ mem' 1 i j k = arr .y i j k := by
  intro bind mem mem' arr
  have hn1 : AtLeast (gridExt g) 1 := by simp only [AtLeast] at *; omega
  have h3 := stencilExt_atLeast g origin domain 3 hn (by omega) (by omega) ho hi
  obtain ⟨c1, c2, _⟩ := C50_dgrid (stencilExt g origin domain) (box origin domain) nk env bind mem
    h3 (by decide) (by decide) (by decide)
  obtain ⟨a1, a2⟩ := C51_dgrid_vector_partial g rows (fun _ => true) (env .mysign)
    (fun a => match a with | .x => x | .y => y) 3 hh rfl hn1 hn
  exact ⟨agree_of (by omega) c1 a1 i j k hp hk rfl, agree_of (by omega) c2 a2 i j k hp hk rfl⟩

/-! ### Examples -/

example : AtLeast (gridExt (exWhole 3)) 3 ∧ hasCorner (exWhole 3) false true = true ∧
    box (0, 0, 0) (11, 11, 2) 1 8 = true ∧
    fillCorners2dB (exWhole 3) 11 true 1 exField .x 1 8 0 = exField .x 2 5 0 ∧
    fillCorners2dA (exWhole 3) 11 false 1 exField .x 1 8 0 = exField .x 4 8 0 := by
  refine ⟨by simp [AtLeast, gridExt, exWhole], by decide, by decide, by decide +kernel,
    by decide +kernel⟩

/-- A rank without corners. -/
example : hasCorner ⟨(4, 4, 1), 3, false, true, false, false, 0⟩ false true = false := rfl

end NDSL.Corner
