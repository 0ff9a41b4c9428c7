import Verif.Lemmas.CubeGeometry
import Verif.Lemmas.Rotate
import Verif.Spec.HaloFill

/-! Where the data of a halo region comes from: arithmetic of one region. -/
namespace NDSL

/-- start of the receive window relative to the compute domain: `c` cells, stagger `s`, width `h` -/
def rst (d c s h : Int) : Int := if d = 0 then 0 else if d = -1 then -h else c + s
/-- start of the send window -/
def sst (d c s h : Int) : Int := if d = 0 then 0 else if d = -1 then s else c - h
/-- length of either window -/
def wln (d c s h : Int) : Int := if d = 0 then c + s else h

/-- the sender's cells `lo' .. hi'` continue the receiver's cells `lo .. hi` in direction `d`, shifted
by `T` -/
structure SAx (d lo hi lo' hi' T : Int) : Prop where
  z : d = 0 → lo' = lo + T ∧ hi' = hi + T
  m : d = -1 → hi' = lo + T
  p : d = 1 → lo' = hi + T

/-- the same, mirrored -/
structure FAx (d lo hi lo' hi' T : Int) : Prop where
  z : d = 0 → lo' = T - hi ∧ hi' = T - lo
  m : d = -1 → lo' = T - lo
  p : d = 1 → hi' = T - hi

theorem dir_cases (bt : BType) : (bt.dir.1 = 0 ∨ bt.dir.1 = -1 ∨ bt.dir.1 = 1) ∧
    (bt.dir.2 = 0 ∨ bt.dir.2 = -1 ∨ bt.dir.2 = 1) := by
  cases bt <;> simp [BType.dir]

section
variable {d lo hi lo' hi' T s h a : Int}

theorem SAx.len (A : SAx d lo hi lo' hi' T) (hd : d = 0 ∨ d = -1 ∨ d = 1) :
    wln (-d) (hi' - lo') s h = wln d (hi - lo) s h := by
  obtain ⟨z, m, p⟩ := A
  rcases hd with rfl | rfl | rfl <;> simp [wln] at * <;> omega

theorem FAx.len (A : FAx d lo hi lo' hi' T) (hd : d = 0 ∨ d = -1 ∨ d = 1) :
    wln d (hi' - lo') s h = wln d (hi - lo) s h := by
  obtain ⟨z, m, p⟩ := A
  rcases hd with rfl | rfl | rfl <;> simp [wln] at * <;> omega

theorem SAx.pos (A : SAx d lo hi lo' hi' T) (hd : d = 0 ∨ d = -1 ∨ d = 1) :
    lo' + (sst (-d) (hi' - lo') s h + (a - rst d (hi - lo) s h)) = lo + a + T := by
  obtain ⟨z, m, p⟩ := A
  rcases hd with rfl | rfl | rfl <;> simp [sst, rst] at * <;> omega

theorem FAx.pos (A : FAx d lo hi lo' hi' T) (hd : d = 0 ∨ d = -1 ∨ d = 1) :
    lo' + (sst d (hi' - lo') s h + (wln d (hi' - lo') s h - 1 - (a - rst d (hi - lo) s h))) =
      T + s - 1 - (lo + a) := by
  obtain ⟨z, m, p⟩ := A
  rcases hd with rfl | rfl | rfl <;> simp [sst, rst, wln] at * <;> omega

end

/-- doubled centred coordinate of a relative index -/
def cpos (L lo s a : Int) : Int := 2 * (lo + a) + 1 - s - L

/-- sender's relative index of the element received at relative index `v` -/
def srcIdx (bt back : BType) (r c c' d d' sx sy sx' sy' h : Int) (v : Int × Int) : Int × Int :=
  let m := rmap r (wln back.dir.1 c' sx' h) (wln back.dir.2 d' sy' h)
    (v.1 - rst bt.dir.1 c sx h, v.2 - rst bt.dir.2 d sy h)
  (sst back.dir.1 c' sx' h + m.1, sst back.dir.2 d' sy' h + m.2)

theorem rdim_zero (v) : rdim 0 v = v := rfl
theorem rdim_one (v) : rdim 1 v = (v.2, v.1) := rfl
theorem rdim_three (v) : rdim 3 v = (v.2, v.1) := rfl

theorem back0 (bt : BType) : (recipB bt 0).dir = (-bt.dir.1, -bt.dir.2) := by
  cases bt <;> rfl
theorem back1 (bt : BType) : (recipB bt 1).dir = (bt.dir.2, -bt.dir.1) := by
  cases bt <;> rfl
theorem back3 (bt : BType) : (recipB bt 3).dir = (-bt.dir.2, bt.dir.1) := by
  cases bt <;> rfl

/-- Where the neighbour sits: `i2`, `j2` are the continued layout coordinates. -/
inductive Where (n : Int) (p : Pos) (bt : BType) : Pos × Int → Prop
  | inside : 0 ≤ p.i + bt.dir.1 → p.i + bt.dir.1 < n → 0 ≤ p.j + bt.dir.2 → p.j + bt.dir.2 < n →
      Where n p bt (⟨p.t, p.j + bt.dir.2, p.i + bt.dir.1⟩, 0)
  | westEven : p.t % 2 = 0 → p.i = 0 → bt.dir.1 = -1 → 0 ≤ p.j + bt.dir.2 → p.j + bt.dir.2 < n →
      Where n p bt (⟨p.t - 2, n - 1, n - 1 - (p.j + bt.dir.2)⟩, 1)
  | westOdd : p.t % 2 = 1 → p.i = 0 → bt.dir.1 = -1 → 0 ≤ p.j + bt.dir.2 → p.j + bt.dir.2 < n →
      Where n p bt (⟨p.t - 1, p.j + bt.dir.2, n - 1⟩, 0)
  | eastEven : p.t % 2 = 0 → p.i = n - 1 → bt.dir.1 = 1 → 0 ≤ p.j + bt.dir.2 →
      p.j + bt.dir.2 < n → Where n p bt (⟨p.t + 1, p.j + bt.dir.2, 0⟩, 0)
  | eastOdd : p.t % 2 = 1 → p.i = n - 1 → bt.dir.1 = 1 → 0 ≤ p.j + bt.dir.2 →
      p.j + bt.dir.2 < n → Where n p bt (⟨p.t + 2, 0, n - 1 - (p.j + bt.dir.2)⟩, 1)
  | northEven : p.t % 2 = 0 → p.j = n - 1 → bt.dir.2 = 1 → 0 ≤ p.i + bt.dir.1 →
      p.i + bt.dir.1 < n → Where n p bt (⟨p.t + 2, n - 1 - (p.i + bt.dir.1), 0⟩, 3)
  | northOdd : p.t % 2 = 1 → p.j = n - 1 → bt.dir.2 = 1 → 0 ≤ p.i + bt.dir.1 →
      p.i + bt.dir.1 < n → Where n p bt (⟨p.t + 1, 0, p.i + bt.dir.1⟩, 0)
  | southEven : p.t % 2 = 0 → p.j = 0 → bt.dir.2 = -1 → 0 ≤ p.i + bt.dir.1 →
      p.i + bt.dir.1 < n → Where n p bt (⟨p.t - 1, n - 1, p.i + bt.dir.1⟩, 0)
  | southOdd : p.t % 2 = 1 → p.j = 0 → bt.dir.2 = -1 → 0 ≤ p.i + bt.dir.1 →
      p.i + bt.dir.1 < n → Where n p bt (⟨p.t - 2, n - 1 - (p.i + bt.dir.1), n - 1⟩, 3)

theorem Where.cast {n : Int} {p : Pos} {bt : BType} {x y : Pos × Int} (h : Where n p bt x)
    (e : x.1.t = y.1.t ∧ x.1.j = y.1.j ∧ x.1.i = y.1.i ∧ x.2 = y.2) : Where n p bt y := by
  obtain ⟨⟨a, b, c⟩, r⟩ := x
  obtain ⟨⟨a', b', c'⟩, r'⟩ := y
  obtain ⟨rfl, rfl, rfl, rfl⟩ := e
  exact h

set_option maxHeartbeats 2000000 in
theorem flat_where {n : Int} {p : Pos} (hp : p.Ok n) {bt : BType} {x : Pos × Int}
    (hx : flat n bt p = some x) : Where n p bt x := by
  obtain ⟨t, j, i⟩ := p
  obtain ⟨c1, c2, c3, c4⟩ := hp
  simp only at c1 c2 c3 c4
  cases bt <;> simp only [flat, eW, eE, eN, eS, cNW, cNE, cSW, cSE] at hx <;>
    (repeat' split at hx) <;>
    simp only [Option.some.injEq, reduceCtorEq] at hx <;> subst hx <;>
    first
    | (refine Where.inside ?_ ?_ ?_ ?_ |>.cast ⟨?_, ?_, ?_, ?_⟩ <;> simp [BType.dir] <;> omega)
    | (refine Where.westEven ?_ ?_ ?_ ?_ ?_ |>.cast ⟨?_, ?_, ?_, ?_⟩ <;> simp [BType.dir] <;> omega)
    | (refine Where.westOdd ?_ ?_ ?_ ?_ ?_ |>.cast ⟨?_, ?_, ?_, ?_⟩ <;> simp [BType.dir] <;> omega)
    | (refine Where.eastEven ?_ ?_ ?_ ?_ ?_ |>.cast ⟨?_, ?_, ?_, ?_⟩ <;> simp [BType.dir] <;> omega)
    | (refine Where.eastOdd ?_ ?_ ?_ ?_ ?_ |>.cast ⟨?_, ?_, ?_, ?_⟩ <;> simp [BType.dir] <;> omega)
    | (refine Where.northEven ?_ ?_ ?_ ?_ ?_ |>.cast ⟨?_, ?_, ?_, ?_⟩ <;> simp [BType.dir] <;> omega)
    | (refine Where.northOdd ?_ ?_ ?_ ?_ ?_ |>.cast ⟨?_, ?_, ?_, ?_⟩ <;> simp [BType.dir] <;> omega)
    | (refine Where.southEven ?_ ?_ ?_ ?_ ?_ |>.cast ⟨?_, ?_, ?_, ?_⟩ <;> simp [BType.dir] <;> omega)
    | (refine Where.southOdd ?_ ?_ ?_ ?_ ?_ |>.cast ⟨?_, ?_, ?_, ?_⟩ <;> simp [BType.dir] <;> omega)

theorem flat_none {n : Int} {p : Pos} (hp : p.Ok n) {bt : BType} (hx : flat n bt p = none) :
    ((p.i = 0 ∧ bt.dir.1 = -1) ∨ (p.i = n - 1 ∧ bt.dir.1 = 1)) ∧
    ((p.j = 0 ∧ bt.dir.2 = -1) ∨ (p.j = n - 1 ∧ bt.dir.2 = 1)) := by
  obtain ⟨t, j, i⟩ := p
  obtain ⟨c1, c2, c3, c4⟩ := hp
  simp only at c1 c2 c3 c4
  cases bt <;> simp only [flat, eW, eE, eN, eS, cNW, cNE, cSW, cSE] at hx <;>
    (repeat' split at hx) <;>
    simp only [reduceCtorEq] at hx <;> simp [BType.dir] <;> omega

/-! one axis -/
section
variable {n L h : Int} {off : Int → Int}

theorem Axis.last (A : Axis n L off) (hn : 0 ≤ n) : off n = L := by
  have := A.mirror 0 (by omega) hn
  rw [A.zero] at this
  simpa using this

theorem Axis.le {i j : Int} (A : Axis n L off) (h0 : 0 ≤ i) (hij : i ≤ j) (hj : j ≤ n) :
    off i ≤ off j := by
  obtain ⟨k, rfl⟩ : ∃ k : Nat, j = i + k := ⟨(j - i).toNat, by omega⟩
  clear hij
  induction k with
  | zero => simp
  | succ k ih =>
    have h1 := ih (by push_cast at hj; omega)
    have h2 := A.mono (i + k) (by omega) (by push_cast at hj; omega)
    have : i + ((k + 1 : Nat) : Int) = i + k + 1 := by push_cast; omega
    rw [this]; omega

theorem Axis.m1 {i : Int} (A : Axis n L off) (h0 : 0 ≤ i) (hi : i < n) :
    off (n - 1 - i) = L - off (i + 1) := by
  have := A.mirror (i + 1) (by omega) (by omega)
  rwa [show n - (i + 1) = n - 1 - i by omega] at this

theorem Axis.m2 {i : Int} (A : Axis n L off) (h0 : 0 ≤ i) (hi : i < n) :
    off (n - 1 - i + 1) = L - off i := by
  have := A.mirror i (by omega) (by omega)
  rwa [show n - i = n - 1 - i + 1 by omega] at this

/-- neighbour in the same tile -/
theorem Axis.shift {i d : Int} (hd : d = 0 ∨ d = -1 ∨ d = 1) :
    SAx d (off i) (off (i + 1)) (off (i + d)) (off (i + d + 1)) 0 := by
  refine ⟨?_, ?_, ?_⟩
  · rintro rfl; simp
  · rintro rfl; rw [show i + -1 + 1 = i by omega]; simp
  · rintro rfl; simp

theorem Axis.flip {i d : Int} (A : Axis n L off) (hd : d = 0 ∨ d = -1 ∨ d = 1)
    (h0 : 0 ≤ i + d) (hi : i + d < n) :
    FAx d (off i) (off (i + 1)) (off (n - 1 - (i + d))) (off (n - 1 - (i + d) + 1)) L := by
  have e1 := A.m1 h0 hi
  have e2 := A.m2 h0 hi
  refine ⟨?_, ?_, ?_⟩ <;> rintro rfl
  · rw [e1, e2]; simp
  · rw [e1, show i + -1 + 1 = i by omega]
  · rw [e2]

theorem Axis.wrapLow (A : Axis n L off) (hn : 0 < n) :
    SAx (-1) (off 0) (off (0 + 1)) (off (n - 1)) (off (n - 1 + 1)) L := by
  refine ⟨by intro h; omega, ?_, by intro h; omega⟩
  intro _; rw [A.zero, show n - 1 + 1 = n by omega, A.last (by omega)]; omega

theorem Axis.wrapHigh (A : Axis n L off) (hn : 0 < n) :
    SAx 1 (off (n - 1)) (off (n - 1 + 1)) (off 0) (off (0 + 1)) (-L) := by
  refine ⟨by intro h; omega, by intro h; omega, ?_⟩
  intro _; rw [A.zero, show n - 1 + 1 = n by omega, A.last (by omega)]; omega

/-- index in the receive window -/
def InRecv (d c s h a : Int) : Prop := rst d c s h ≤ a ∧ a < rst d c s h + wln d c s h

theorem Axis.range {i d s a : Int} (A : Axis n L off) (h0 : 0 ≤ i) (hi : i < n)
    (hs : s = 0 ∨ s = 1) (hd : d = 0 ∨ d = -1 ∨ d = 1)
    (hw : ∀ i, 0 ≤ i → i < n → h ≤ off (i + 1) - off i)
    (ha : InRecv d (off (i + 1) - off i) s h a) :
    (0 ≤ i + d → i + d < n → -L ≤ cpos L (off i) s a ∧ cpos L (off i) s a ≤ L) ∧
    (i = 0 → d = -1 → cpos L (off i) s a < -L) ∧
    (i = n - 1 → d = 1 → L < cpos L (off i) s a) := by
  obtain ⟨a1, a2⟩ := ha
  have l := A.last (by omega)
  have z := A.zero
  have p1 := A.le (i := 0) (j := i) (by omega) (by omega) (by omega)
  have p2 := A.le (i := i + 1) (j := n) (by omega) (by omega) (by omega)
  unfold cpos
  refine ⟨?_, ?_, ?_⟩
  · intro b1 b2
    rcases hd with rfl | rfl | rfl
    · simp [rst, wln] at a1 a2; omega
    · have w := hw (i + -1) b1 b2
      rw [show i + -1 + 1 = i by omega] at w
      have p3 := A.le (i := 0) (j := i + -1) (by omega) (by omega) (by omega)
      have p4 := A.le (i := i) (j := i + 1) (by omega) (by omega) (by omega)
      simp [rst, wln] at a1 a2; omega
    · have w := hw (i + 1) b1 b2
      have p3 := A.le (i := i + 1 + 1) (j := n) (by omega) (by omega) (by omega)
      have p4 := A.le (i := i) (j := i + 1) (by omega) (by omega) (by omega)
      simp [rst, wln] at a1 a2; omega
  · rintro rfl rfl
    simp [rst, wln] at a1 a2; omega
  · rintro rfl rfl
    rw [show n - 1 + 1 = n by omega] at *
    simp [rst, wln] at a1 a2; omega

theorem sst_range {d c s h a : Int} (hs : s = 0 ∨ s = 1) (hd : d = 0 ∨ d = -1 ∨ d = 1)
    (hh : h ≤ c) (h0 : 0 ≤ a ∧ a < wln d c s h) :
    0 ≤ sst d c s h + a ∧ sst d c s h + a < c + s := by
  rcases hd with rfl | rfl | rfl <;> simp [wln, sst] at * <;> omega

end

/-! bending over an edge -/
section
variable {L t u v : Int}

theorem fold_in (h1 : -L ≤ u) (h2 : u ≤ L) (h3 : -L ≤ v) (h4 : v ≤ L) :
    fold L t u v = some (onCube L t u v) := by
  unfold fold
  rw [if_neg (by omega), if_neg (by omega), if_neg (by omega), if_neg (by omega), if_neg (by omega)]

theorem foldAxes_in (h1 : -L ≤ u) (h2 : u ≤ L) (h3 : -L ≤ v) (h4 : v ≤ L) :
    foldAxes L t u v = ((frame t).ex, (frame t).ey) := by
  unfold foldAxes
  rw [if_neg (by omega), if_neg (by omega), if_neg (by omega), if_neg (by omega)]

/-- axes of a frame turned by `r` clockwise quarter turns -/
def turnFrame (r : Int) (f : Frame) : V3 × V3 :=
  if r % 4 = 0 then (f.ex, f.ey)
  else if r % 4 = 1 then (f.ey, f.ex.neg)
  else if r % 4 = 2 then (f.ex.neg, f.ey.neg)
  else (f.ey.neg, f.ex)

end


section
variable {L t u v : Int}

theorem fold_w (hu : u < -L) (h1 : -L ≤ v) (h2 : v ≤ L) :
    fold L t u v = some (((frame t).ex.smul (-L)).add
      (((frame t).nrm.smul (L - (-u - L))).add ((frame t).ey.smul v))) ∧
    foldAxes L t u v = ((frame t).nrm, (frame t).ey) := by
  unfold fold foldAxes
  constructor
  · rw [if_neg (by omega), if_neg (by omega), if_pos hu]
  · rw [if_neg (by omega), if_pos hu]
theorem fold_e (hu : L < u) (h1 : -L ≤ v) (h2 : v ≤ L) :
    fold L t u v = some (((frame t).ex.smul L).add
      (((frame t).nrm.smul (L - (u - L))).add ((frame t).ey.smul v))) ∧
    foldAxes L t u v = ((frame t).nrm.neg, (frame t).ey) := by
  unfold fold foldAxes
  constructor
  · rw [if_neg (by omega), if_pos hu]
  · rw [if_pos hu]
theorem fold_n (hv : L < v) (h1 : -L ≤ u) (h2 : u ≤ L) :
    fold L t u v = some (((frame t).ey.smul L).add
      (((frame t).nrm.smul (L - (v - L))).add ((frame t).ex.smul u))) ∧
    foldAxes L t u v = ((frame t).ex, (frame t).nrm.neg) := by
  unfold fold foldAxes
  constructor
  · rw [if_neg (by omega), if_neg (by omega), if_neg (by omega), if_pos hv]
  · rw [if_neg (by omega), if_neg (by omega), if_pos hv]
theorem fold_s (hv : v < -L) (h1 : -L ≤ u) (h2 : u ≤ L) :
    fold L t u v = some (((frame t).ey.smul (-L)).add
      (((frame t).nrm.smul (L - (-v - L))).add ((frame t).ex.smul u))) ∧
    foldAxes L t u v = ((frame t).ex, (frame t).nrm) := by
  unfold fold foldAxes
  constructor
  · rw [if_neg (by omega), if_neg (by omega), if_neg (by omega), if_neg (by omega), if_pos hv]
  · rw [if_neg (by omega), if_neg (by omega), if_neg (by omega), if_pos hv]
theorem fold_none (hu : u < -L ∨ L < u) (hv : v < -L ∨ L < v) : fold L t u v = none := by
  unfold fold
  rw [if_pos (by omega)]

end

local macro "sixfold" h0:ident h6:ident : tactic => `(tactic| (
  rcases six_cases $h0 $h6 with h | h | h | h | h | h <;> subst h <;>
  first
  | (exfalso; omega)
  | (constructor <;> simp [onCube, frame, V3.add, V3.smul, V3.neg, turnFrame] <;> omega)
  | (constructor <;> simp [onCube, frame, V3.add, V3.smul, V3.neg, turnFrame] ; omega)))

section
variable {L t u v : Int} (h0 : 0 ≤ t) (h6 : t < 6)
include h0 h6

theorem bend_w0 (ht : t % 2 = 0) (hu : u < -L) (h1 : -L ≤ v) (h2 : v ≤ L) :
    some (onCube L ((t - 2) % 6) (-v) (u + 2 * L)) = fold L t u v ∧
    foldAxes L t u v = turnFrame 1 (frame ((t - 2) % 6)) := by
  rw [(fold_w hu h1 h2).1, (fold_w hu h1 h2).2]; sixfold h0 h6
theorem bend_w1 (ht : t % 2 = 1) (hu : u < -L) (h1 : -L ≤ v) (h2 : v ≤ L) :
    some (onCube L ((t - 1) % 6) (u + 2 * L) v) = fold L t u v ∧
    foldAxes L t u v = turnFrame 0 (frame ((t - 1) % 6)) := by
  rw [(fold_w hu h1 h2).1, (fold_w hu h1 h2).2]; sixfold h0 h6
theorem bend_e0 (ht : t % 2 = 0) (hu : L < u) (h1 : -L ≤ v) (h2 : v ≤ L) :
    some (onCube L ((t + 1) % 6) (u - 2 * L) v) = fold L t u v ∧
    foldAxes L t u v = turnFrame 0 (frame ((t + 1) % 6)) := by
  rw [(fold_e hu h1 h2).1, (fold_e hu h1 h2).2]; sixfold h0 h6
theorem bend_e1 (ht : t % 2 = 1) (hu : L < u) (h1 : -L ≤ v) (h2 : v ≤ L) :
    some (onCube L ((t + 2) % 6) (-v) (u - 2 * L)) = fold L t u v ∧
    foldAxes L t u v = turnFrame 1 (frame ((t + 2) % 6)) := by
  rw [(fold_e hu h1 h2).1, (fold_e hu h1 h2).2]; sixfold h0 h6
theorem bend_n0 (ht : t % 2 = 0) (hv : L < v) (h1 : -L ≤ u) (h2 : u ≤ L) :
    some (onCube L ((t + 2) % 6) (v - 2 * L) (-u)) = fold L t u v ∧
    foldAxes L t u v = turnFrame 3 (frame ((t + 2) % 6)) := by
  rw [(fold_n hv h1 h2).1, (fold_n hv h1 h2).2]; sixfold h0 h6
theorem bend_n1 (ht : t % 2 = 1) (hv : L < v) (h1 : -L ≤ u) (h2 : u ≤ L) :
    some (onCube L ((t + 1) % 6) u (v - 2 * L)) = fold L t u v ∧
    foldAxes L t u v = turnFrame 0 (frame ((t + 1) % 6)) := by
  rw [(fold_n hv h1 h2).1, (fold_n hv h1 h2).2]; sixfold h0 h6
theorem bend_s0 (ht : t % 2 = 0) (hv : v < -L) (h1 : -L ≤ u) (h2 : u ≤ L) :
    some (onCube L ((t - 1) % 6) u (v + 2 * L)) = fold L t u v ∧
    foldAxes L t u v = turnFrame 0 (frame ((t - 1) % 6)) := by
  rw [(fold_s hv h1 h2).1, (fold_s hv h1 h2).2]; sixfold h0 h6
theorem bend_s1 (ht : t % 2 = 1) (hv : v < -L) (h1 : -L ≤ u) (h2 : u ≤ L) :
    some (onCube L ((t - 2) % 6) (v + 2 * L) (-u)) = fold L t u v ∧
    foldAxes L t u v = turnFrame 3 (frame ((t - 2) % 6)) := by
  rw [(fold_s hv h1 h2).1, (fold_s hv h1 h2).2]; sixfold h0 h6

end

/-- The data received at relative index `(a, b)`: it comes from inside the compute domain of the
neighbour, from the point of the cube over which the receiving point is folded. -/
structure Fill (n L h : Int) (off : Int → Int) (p : Pos) (bt : BType) (x : Pos × Int)
    (sx sy a b : Int) : Prop where
  len : rdim x.2 (wln (recipB bt x.2).dir.1 (off (x.1.red.i + 1) - off x.1.red.i)
      (rdim x.2 (sx, sy)).1 h, wln (recipB bt x.2).dir.2 (off (x.1.red.j + 1) - off x.1.red.j)
      (rdim x.2 (sx, sy)).2 h) =
    (wln bt.dir.1 (off (p.i + 1) - off p.i) sx h, wln bt.dir.2 (off (p.j + 1) - off p.j) sy h)
  place : ∀ g, g = srcIdx bt (recipB bt x.2) x.2 (off (p.i + 1) - off p.i)
      (off (x.1.red.i + 1) - off x.1.red.i) (off (p.j + 1) - off p.j)
      (off (x.1.red.j + 1) - off x.1.red.j) sx sy (rdim x.2 (sx, sy)).1 (rdim x.2 (sx, sy)).2 h
      (a, b) →
    some (onCube L x.1.red.t (cpos L (off x.1.red.i) (rdim x.2 (sx, sy)).1 g.1)
      (cpos L (off x.1.red.j) (rdim x.2 (sx, sy)).2 g.2)) =
      fold L p.t (cpos L (off p.i) sx a) (cpos L (off p.j) sy b)
  axes : foldAxes L p.t (cpos L (off p.i) sx a) (cpos L (off p.j) sy b) =
    turnFrame x.2 (frame x.1.red.t)

section
variable {n L h : Int} {off : Int → Int} {p : Pos} {bt : BType}

/-- the three kinds of crossing -/
theorem fill0 {q : Pos} {T U sx sy a b : Int}
    (X : SAx bt.dir.1 (off p.i) (off (p.i + 1)) (off q.i) (off (q.i + 1)) T)
    (Y : SAx bt.dir.2 (off p.j) (off (p.j + 1)) (off q.j) (off (q.j + 1)) U)
    (hf : some (onCube L (q.t % 6) (cpos L (off p.i) sx a + 2 * T) (cpos L (off p.j) sy b + 2 * U)) =
      fold L p.t (cpos L (off p.i) sx a) (cpos L (off p.j) sy b) ∧
      foldAxes L p.t (cpos L (off p.i) sx a) (cpos L (off p.j) sy b) =
        turnFrame 0 (frame (q.t % 6))) :
    Fill n L h off p bt (q, 0) sx sy a b := by
  obtain ⟨d1, d2⟩ := dir_cases bt
  refine ⟨?_, ?_, hf.2⟩
  · simp only [rdim_zero, back0]
    exact Prod.ext (X.len d1) (Y.len d2)
  · rintro g rfl
    rw [← hf.1]
    simp only [rdim_zero, back0, srcIdx, rmap, Int.zero_emod, if_true, Pos.red, cpos]
    rw [X.pos d1, Y.pos d2]
    congr 2 <;> omega

theorem fill1 {q : Pos} {U sx sy a b : Int}
    (Y : SAx bt.dir.1 (off p.i) (off (p.i + 1)) (off q.j) (off (q.j + 1)) U)
    (X : FAx bt.dir.2 (off p.j) (off (p.j + 1)) (off q.i) (off (q.i + 1)) L)
    (hf : some (onCube L (q.t % 6) (-cpos L (off p.j) sy b) (cpos L (off p.i) sx a + 2 * U)) =
      fold L p.t (cpos L (off p.i) sx a) (cpos L (off p.j) sy b) ∧
      foldAxes L p.t (cpos L (off p.i) sx a) (cpos L (off p.j) sy b) =
        turnFrame 1 (frame (q.t % 6))) :
    Fill n L h off p bt (q, 1) sx sy a b := by
  obtain ⟨d1, d2⟩ := dir_cases bt
  refine ⟨?_, ?_, hf.2⟩
  · simp only [rdim_one, back1]
    exact Prod.ext (Y.len d1) (X.len d2)
  · rintro g rfl
    rw [← hf.1]
    simp only [rdim_one, back1, srcIdx, rmap, show ((1 : Int) % 4 = 0) = False by decide,
      show ((1 : Int) % 4 = 1) = True by decide, if_true, if_false, Pos.red, cpos]
    rw [X.pos d2, Y.pos d1]
    congr 2 <;> omega

theorem fill3 {q : Pos} {U sx sy a b : Int}
    (X : SAx bt.dir.2 (off p.j) (off (p.j + 1)) (off q.i) (off (q.i + 1)) U)
    (Y : FAx bt.dir.1 (off p.i) (off (p.i + 1)) (off q.j) (off (q.j + 1)) L)
    (hf : some (onCube L (q.t % 6) (cpos L (off p.j) sy b + 2 * U) (-cpos L (off p.i) sx a)) =
      fold L p.t (cpos L (off p.i) sx a) (cpos L (off p.j) sy b) ∧
      foldAxes L p.t (cpos L (off p.i) sx a) (cpos L (off p.j) sy b) =
        turnFrame 3 (frame (q.t % 6))) :
    Fill n L h off p bt (q, 3) sx sy a b := by
  obtain ⟨d1, d2⟩ := dir_cases bt
  refine ⟨?_, ?_, hf.2⟩
  · simp only [rdim_three, back3]
    exact Prod.ext (Y.len d1) (X.len d2)
  · rintro g rfl
    rw [← hf.1]
    simp only [rdim_three, back3, srcIdx, rmap, show ((3 : Int) % 4 = 0) = False by decide,
      show ((3 : Int) % 4 = 1) = False by decide, show ((3 : Int) % 4 = 2) = False by decide,
      if_true, if_false, Pos.red, cpos]
    rw [X.pos d2, Y.pos d1]
    congr 2 <;> omega

theorem flat_fill (A : Axis n L off) (hw : ∀ i, 0 ≤ i → i < n → h ≤ off (i + 1) - off i)
    (hp : p.Ok n) (h0 : 0 ≤ p.t) (h6 : p.t < 6) {x : Pos × Int} (hx : flat n bt p = some x)
    {sx sy : Int} (hsx : sx = 0 ∨ sx = 1) (hsy : sy = 0 ∨ sy = 1) (a b : Int)
    (ha : InRecv bt.dir.1 (off (p.i + 1) - off p.i) sx h a)
    (hb : InRecv bt.dir.2 (off (p.j + 1) - off p.j) sy h b) :
    Fill n L h off p bt x sx sy a b := by
  obtain ⟨d1, d2⟩ := dir_cases bt
  obtain ⟨c1, c2, c3, c4⟩ := hp
  obtain ⟨a1, a2, a3⟩ := A.range c3 c4 hsx d1 hw ha
  obtain ⟨b1, b2, b3⟩ := A.range c1 c2 hsy d2 hw hb
  cases flat_where ⟨c1, c2, c3, c4⟩ hx with
  | inside e1 e2 e3 e4 =>
    obtain ⟨a1, a1'⟩ := a1 e1 e2
    obtain ⟨b1, b1'⟩ := b1 e3 e4
    refine fill0 (T := 0) (U := 0) (Axis.shift d1) (Axis.shift d2) ?_
    rw [show p.t % 6 = p.t by omega, fold_in a1 a1' b1 b1', foldAxes_in a1 a1' b1 b1']
    exact ⟨by simp, rfl⟩
  | westEven e0 e1 e2 e3 e4 =>
    obtain ⟨b1, b1'⟩ := b1 e3 e4
    refine fill1 (U := L) ?_ (A.flip d2 e3 e4) (bend_w0 h0 h6 e0 (a2 e1 e2) b1 b1')
    rw [e1, e2]; exact A.wrapLow (by omega)
  | westOdd e0 e1 e2 e3 e4 =>
    obtain ⟨b1, b1'⟩ := b1 e3 e4
    refine fill0 (T := L) (U := 0) ?_ (Axis.shift d2) ?_
    · rw [e1, e2]; exact A.wrapLow (by omega)
    · have := bend_w1 h0 h6 e0 (a2 e1 e2) b1 b1'
      simpa using this
  | eastEven e0 e1 e2 e3 e4 =>
    obtain ⟨b1, b1'⟩ := b1 e3 e4
    refine fill0 (T := -L) (U := 0) ?_ (Axis.shift d2) ?_
    · rw [e1, e2]; exact A.wrapHigh (by omega)
    · have := bend_e0 h0 h6 e0 (a3 e1 e2) b1 b1'
      simpa [Int.sub_eq_add_neg, Int.mul_neg] using this
  | eastOdd e0 e1 e2 e3 e4 =>
    obtain ⟨b1, b1'⟩ := b1 e3 e4
    refine fill1 (U := -L) ?_ (A.flip d2 e3 e4) ?_
    · rw [e1, e2]; exact A.wrapHigh (by omega)
    · have := bend_e1 h0 h6 e0 (a3 e1 e2) b1 b1'
      simpa [Int.sub_eq_add_neg, Int.mul_neg] using this
  | northEven e0 e1 e2 e3 e4 =>
    obtain ⟨a1, a1'⟩ := a1 e3 e4
    refine fill3 (U := -L) ?_ (A.flip d1 e3 e4) ?_
    · rw [e1, e2]; exact A.wrapHigh (by omega)
    · have := bend_n0 h0 h6 e0 (b3 e1 e2) a1 a1'
      simpa [Int.sub_eq_add_neg, Int.mul_neg] using this
  | northOdd e0 e1 e2 e3 e4 =>
    obtain ⟨a1, a1'⟩ := a1 e3 e4
    refine fill0 (T := 0) (U := -L) (Axis.shift d1) ?_ ?_
    · rw [e1, e2]; exact A.wrapHigh (by omega)
    · have := bend_n1 h0 h6 e0 (b3 e1 e2) a1 a1'
      simpa [Int.sub_eq_add_neg, Int.mul_neg] using this
  | southEven e0 e1 e2 e3 e4 =>
    obtain ⟨a1, a1'⟩ := a1 e3 e4
    refine fill0 (T := 0) (U := L) (Axis.shift d1) ?_ ?_
    · rw [e1, e2]; exact A.wrapLow (by omega)
    · have := bend_s0 h0 h6 e0 (b2 e1 e2) a1 a1'
      simpa using this
  | southOdd e0 e1 e2 e3 e4 =>
    obtain ⟨a1, a1'⟩ := a1 e3 e4
    refine fill3 (U := L) ?_ (A.flip d1 e3 e4) (bend_s1 h0 h6 e0 (b2 e1 e2) a1 a1')
    rw [e1, e2]; exact A.wrapLow (by omega)

/-- Beyond a vertex of the cube the sheet has no continuation. -/
theorem flat_fill_none (A : Axis n L off) (hw : ∀ i, 0 ≤ i → i < n → h ≤ off (i + 1) - off i)
    (hp : p.Ok n) (hx : flat n bt p = none)
    {sx sy : Int} (hsx : sx = 0 ∨ sx = 1) (hsy : sy = 0 ∨ sy = 1) (a b : Int)
    (ha : InRecv bt.dir.1 (off (p.i + 1) - off p.i) sx h a)
    (hb : InRecv bt.dir.2 (off (p.j + 1) - off p.j) sy h b) :
    fold L p.t (cpos L (off p.i) sx a) (cpos L (off p.j) sy b) = none := by
  obtain ⟨d1, d2⟩ := dir_cases bt
  obtain ⟨c1, c2, c3, c4⟩ := hp
  obtain ⟨_, a2, a3⟩ := A.range c3 c4 hsx d1 hw ha
  obtain ⟨_, b2, b3⟩ := A.range c1 c2 hsy d2 hw hb
  obtain ⟨e1, e2⟩ := flat_none ⟨c1, c2, c3, c4⟩ hx
  apply fold_none
  · rcases e1 with e | e
    · exact .inl (a2 e.1 e.2)
    · exact .inr (a3 e.1 e.2)
  · rcases e2 with e | e
    · exact .inl (b2 e.1 e.2)
    · exact .inr (b3 e.1 e.2)

end

end NDSL
