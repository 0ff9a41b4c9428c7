import Verif.Model.ExternalGrid
import Verif.Props.HaloUpdate
import Verif.Props.HaloKept
import Verif.Props.CornerArrays
import Mathlib.Tactic.Ring
import Mathlib.Tactic.Linarith

/-! C144: a grid from external data. -/
namespace NDSL
open NArr Indexing

variable {K : Type} [Inhabited K] [Mul K]

/-- How far beyond the edge of a tile of half side `L`. -/
def overshoot (L w : Int) : Int := if w > L then w - L else -w - L

/-- The point of the sheet of a tile that stands for a point beyond a corner: a quarter turn about the corner, staying
beyond the same west or east edge. -/
def turned (L u v : Int) : Int × Int :=
  (if u > L then L + overshoot L v else -L - overshoot L v, if v > L then L - overshoot L u else -L + overshoot L u)

/-- The place on the cube of a point of the continued sheet of a tile, beyond a corner that of the turned point. -/
def continued (L t u v : Int) : Option V3 :=
  match fold L t u v with
  | some P => some P
  | none => fold L t (turned L u v).1 (turned L u v).2

theorem multiples (n c i : Int) (h0 : 0 ≤ i) (h1 : i < n) (hc : 0 ≤ c) :
    (i = n - 1 ∧ c * i = n * c - c ∨ i < n - 1 ∧ c * i ≤ n * c - 2 * c) ∧ (i = 0 ∧ c * i = 0 ∨ 0 < i ∧ c ≤ c * i) := by
  constructor
  · rcases eq_or_lt_of_le (show i ≤ n - 1 by omega) with h | h
    · left; refine ⟨h, by rw [h]; ring⟩
    · right; refine ⟨h, ?_⟩
      have : c * i ≤ c * (n - 2) := mul_le_mul_of_nonneg_left (by omega) hc
      have e : c * (n - 2) = n * c - 2 * c := by ring
      omega
  · rcases eq_or_lt_of_le h0 with h | h
    · left; refine ⟨h.symm, by rw [← h]; ring⟩
    · right; refine ⟨h, ?_⟩
      have : c * 1 ≤ c * i := mul_le_mul_of_nonneg_left (by omega) hc
      omega

theorem external_axis (n c : Int) (hc : 0 ≤ c) : Axis n (n * c) (fun i => c * i) where
  zero := by simp
  mirror := by intro i _ _; ring
  mono := by
    intro i _ _
    have : c * (i + 1) = c * i + c := by ring
    omega

theorem external_fields (n h c : Int) (hh : 0 ≤ h) (hc : 0 ≤ c) (x y : Int → Int → Int → K) (old : Int → List Int → K) :
    CubeFields n h (fun i => c * i) fun s => ([cornerView h c (x s) (y s) (old s)] : List (Qty K)).map Qty.ds where
  fields := by
    intro s t j i _ _ _ ds hds
    rw [List.map_singleton, List.mem_singleton] at hds
    subst hds
    have e : ∀ i : Int, c * (i + 1) - c * i = c := by intro i; ring
    simp only [e, cornerView, cornerSpecs]
    refine ⟨⟨rfl, rfl⟩, ?_, ?_, ?_, ?_⟩ <;>
      simp [Dim.isI, Dim.isJ, DimSpec.stag, Dim.isInterface, Dim.isHorizontal] <;> omega
  same := by
    intro s s' _ _ _ _
    exact .cons ⟨rfl, .cons (fun _ => rfl) (.cons (fun _ => rfl) (.cons (fun _ => rfl) .nil))⟩ .nil

theorem external_coord (h c L ci a b k : Int) : coordI L ci (cornerSpecs h c) [a, b, k] = 2 * (ci + (a - h)) - L ∧
    coordJ L ci (cornerSpecs h c) [a, b, k] = 2 * (ci + (b - h)) - L ∧ levels (cornerSpecs h c) [a, b, k] = [k] := by
  refine ⟨?_, ?_, ?_⟩
  · simp [coordI, cornerSpecs, Dim.isI, DimSpec.stag, Dim.isInterface]
  · simp [coordJ, cornerSpecs, Dim.isJ, DimSpec.stag, Dim.isInterface]
  · simp [levels, cornerSpecs, Dim.isHorizontal, Dim.isI, Dim.isJ]

theorem external_inside (h c : Int) (g : List Int) : InCompute (cornerSpecs h c) g ↔
    ∃ a b k, g = [a, b, k] ∧ h ≤ a ∧ a < h + (c + 1) ∧ h ≤ b ∧ b < h + (c + 1) ∧ 0 ≤ k ∧ k < 2 := by
  unfold InCompute cornerSpecs
  constructor
  · intro hg
    cases hg with
    | cons p hg => cases hg with
      | cons q hg => cases hg with
        | cons r hg =>
          cases hg
          simp only at p q r
          exact ⟨_, _, _, rfl, p.1, p.2, q.1, q.2, r.1, by omega⟩
  · rintro ⟨a, b, k, rfl, h1, h2, h3, h4, h5, h6⟩
    exact .cons ⟨h1, h2⟩ (.cons ⟨h3, h4⟩ (.cons ⟨h5, by simpa using h6⟩ .nil))

theorem external_widened (h c a b k : Int) (ha : 0 ≤ a) (ha' : a < c + 1 + 2 * h) (hb : 0 ≤ b) (hb' : b < c + 1 + 2 * h)
    (hk : 0 ≤ k) (hk' : k < 2) : InWidened h (cornerSpecs h c) [a, b, k] := by
  unfold InWidened cornerSpecs
  refine .cons ?_ (.cons ?_ (.cons ?_ .nil)) <;> simp [Dim.isHorizontal, Dim.isI, Dim.isJ] <;> omega

/-- The index of the turned point. -/
theorem turned_index (L h c ci cj a b : Int) (e no : Bool)
    (he : if e then ci = L - c ∧ 2 * (ci + (a - h)) - L > L else ci = 0 ∧ 2 * (ci + (a - h)) - L < -L)
    (hno : if no then cj = L - c ∧ 2 * (cj + (b - h)) - L > L else cj = 0 ∧ 2 * (cj + (b - h)) - L < -L) (hL : 0 ≤ L) :
    turned L (2 * (ci + (a - h)) - L) (2 * (cj + (b - h)) - L) =
      (2 * (ci + ((if e then h + c + (if no then b - (h + c) else h - b) else h - (if no then b - (h + c) else h - b)) - h)) - L,
       2 * (cj + ((if no then h + c - (if e then a - (h + c) else h - a) else h + (if e then a - (h + c) else h - a)) - h)) - L) := by
  cases e <;> cases no <;> simp only [Bool.false_eq_true, if_false, if_true] at he hno ⊢ <;>
    simp only [turned, overshoot, Prod.mk.injEq] <;> constructor <;> (repeat' split) <;> omega

/-- The value at a point on the cube that some rank has among those of its own corners. -/
def Owned (n c : Int) (x y : Int → Int → Int → K) (k : Int) (P : V3) (v : K) : Prop :=
  ∃ s t j i a b, 0 ≤ s ∧ s < (squareCube n).totalRanks ∧ (squareCube n).At s t j i ∧ 0 ≤ a ∧ a ≤ c ∧ 0 ≤ b ∧ b ≤ c ∧
    onCube (n * c) t (2 * (c * i + a) - n * c) (2 * (c * j + b) - n * c) = P ∧ v = if k = 0 then x s a b else y s a b

set_option maxHeartbeats 1000000 in
/-- **C144**: after the halo update and the filling of the corners, every point of the array of every rank, halo and
corners included, holds the value that a rank has for its own corner at the point's place on the cube: the place reached
by continuing the sheet of the tile over its edge and, beyond a corner of the tile, that of the point a quarter turn about
the corner away, beyond the same west or east edge. -/
theorem C144_owner (n h c nz : Int) (hn : 0 < n) (hh : 0 < h) (hc : h ≤ c) (junk : Nat → K) (one : K)
    (x y : Int → Int → Int → K) (old : Int → List Int → K)
    (r t j i : Int) (h0 : 0 ≤ r) (h1 : r < (squareCube n).totalRanks) (hpos : (squareCube n).At r t j i) :
    ∃ q, (squareCube n).completeGrid junk h c nz one x y old r = .ok [q] ∧
      ∀ a b k, 0 ≤ a → a < c + 1 + 2 * h → 0 ≤ b → b < c + 1 + 2 * h → 0 ≤ k → k < 2 →
        ∃ P, continued (n * c) t (2 * (c * i + (a - h)) - n * c) (2 * (c * j + (b - h)) - n * c) = some P ∧
          Owned n c x y k P (q.data.get [a, b, k]) := by
  have hc0 : 0 ≤ c := by omega
  have hij : (0 ≤ i ∧ i < n) ∧ 0 ≤ j ∧ j < n := by
    obtain ⟨p, hp, -, -, rfl⟩ := exists_pos hn h0 h1
    obtain ⟨-, rfl, rfl⟩ := (at_iff hp t j i).1 hpos
    exact ⟨⟨hp.2.2.1, hp.2.2.2⟩, hp.1, hp.2.1⟩
  obtain ⟨out, ho, hl, H⟩ := C19_cube_halo_fill n h (n * c) hn hh (fun i => c * i) (external_axis n c hc0)
    (fun i _ _ => by have : c * (i + 1) = c * i + c := by ring
                     omega) junk
    (fun s => [cornerView h c (x s) (y s) (old s)]) (external_fields n h c (by omega) hc0 x y old)
    (fun s _ _ q hq => by
      rw [List.mem_singleton] at hq; subst hq
      unfold SquareStagger cornerView cornerSpecs
      simp [Dim.isI, Dim.isJ, DimSpec.stag, Dim.isInterface]) r t j i h0 h1 hpos (by simp)
  have KP := C20_halo_update_keeps _ junk h (by omega) _ r out ho
  obtain ⟨q, rfl⟩ : ∃ q, out = [q] := by
    match out, hl with
    | [q], _ => exact ⟨q, rfl⟩
  obtain ⟨-, -, H⟩ := H 0 _ q rfl rfl
  obtain ⟨-, -, KP⟩ := KP.2 0 _ q rfl rfl
  have KP := KP ⟨rfl, rfl⟩
    (by simp [cornerView, cornerSpecs]; omega)
  have hval : ∀ s t j i, 0 ≤ s → s < (squareCube n).totalRanks → (squareCube n).At s t j i → ∀ a b k, h ≤ a → a < h + (c + 1) → h ≤ b → b < h + (c + 1) → 0 ≤ k → k < 2 →
      Owned n c x y k (onCube (n * c) t (2 * (c * i + (a - h)) - n * c) (2 * (c * j + (b - h)) - n * c))
        ((cornerView h c (x s) (y s) (old s)).data.get [a, b, k]) := by
    intro s t j i s0 s1 hs a b k ha ha' hb hb' hk hk'
    refine ⟨s, t, j, i, a - h, b - h, s0, s1, hs, by omega, by omega, by omega, by omega, rfl, ?_⟩
    simp only [cornerView]
    rw [if_pos ⟨ha, ha', hb, hb'⟩]
    rcases (show k = 0 ∨ k = 1 by omega) with rfl | rfl
    · rfl
    · rfl
  obtain ⟨mi, mi'⟩ := multiples n c i hij.1.1 hij.1.2 hc0
  obtain ⟨mj, mj'⟩ := multiples n c j hij.2.1 hij.2.2 hc0
  -- after the halo update
  have mid : ∀ a b k, 0 ≤ a → a < c + 1 + 2 * h → 0 ≤ b → b < c + 1 + 2 * h → 0 ≤ k → k < 2 → ∀ P,
      fold (n * c) t (2 * (c * i + (a - h)) - n * c) (2 * (c * j + (b - h)) - n * c) = some P →
      Owned n c x y k P (q.data.get [a, b, k]) := by
    intro a b k ha ha' hb hb' hk hk' P hP
    by_cases hin : InCompute (cornerSpecs h c) [a, b, k]
    · rw [KP _ (.inl hin)]
      obtain ⟨a', b', k', e, g1, g2, g3, g4, g5, g6⟩ := (external_inside h c _).1 hin
      simp only [List.cons.injEq, and_true] at e
      obtain ⟨rfl, rfl, rfl⟩ := e
      have hv := hval r t j i h0 h1 hpos a b k g1 g2 g3 g4 g5 g6
      unfold fold at hP
      rw [if_neg (by omega), if_neg (by omega), if_neg (by omega), if_neg (by omega), if_neg (by omega)] at hP
      rw [Option.some.inj hP] at hv
      exact hv
    · have F := H [a, b, k] (external_widened h c a b k ha ha' hb hb' hk hk') hin
      have ec := external_coord h c (n * c)
      simp only [cornerView] at F
      rw [(ec (c * i) a b k).1, (ec (c * j) a b k).2.1, hP] at F
      obtain ⟨s, t', j', i', qs, gs, s0, s1, hs, e, inn, on, lv, val⟩ := F
      simp only [List.getElem?_cons_zero, Option.some.injEq] at e
      subst e
      obtain ⟨a', b', k', rfl, g1, g2, g3, g4, g5, g6⟩ := (external_inside h c _).1 inn
      have lv' := lv
      rw [(ec 0 a b k).2.2] at lv'
      have lk : k' = k := by
        have := (ec 0 a' b' k').2.2
        exact (List.cons.inj ((this.symm.trans lv'))).1
      subst lk
      have hv := hval s t' j' i' s0 s1 hs a' b' k' g1 g2 g3 g4 g5 g6
      rw [← (ec (c * i') a' b' k').1, ← (ec (c * j') a' b' k').2.1] at hv
      have on' : onCube (n * c) t' (coordI (n * c) (c * i') (cornerSpecs h c) [a', b', k']) (coordJ (n * c) (c * j') (cornerSpecs h c) [a', b', k']) = P := on
      rw [on'] at hv
      exact val.symm ▸ hv
  -- the corners
  have hsub : (squareCube n).tile.subtileIndex r = (j, i) := hpos.2
  have edges : ∀ e no, Corner.hasCorner ((squareCube n).gridIndexing h c nz r) e no = true ↔
      (if e then i = n - 1 else i = 0) ∧ (if no then j = n - 1 else j = 0) := by
    intro e no
    simp only [Corner.hasCorner, CubePart.gridIndexing, TilePart.onBottom, TilePart.onTop, TilePart.onLeft, TilePart.onRight,
      onTileBottom, onTileTop, onTileLeft, onTileRight, hsub]
    cases e <;> cases no <;> simp
  have hf := Corner.C51_bgrid_x ((squareCube n).gridIndexing h c nz r) (c + 1 + 2 * h) one
    (fun _ i j m => q.data.get [i, j, (m : Int)]) h.toNat (by simp [CubePart.gridIndexing]; omega)
    (by simp [Corner.AtLeast, Corner.gridExt, CubePart.gridIndexing]; omega)
    (by simp [Corner.AtLeast, Corner.gridExt, CubePart.gridIndexing]; omega) (by simp [CubePart.gridIndexing]; omega)
  have hin : ∀ e no a b, Corner.InCorner (Corner.gridExt ((squareCube n).gridIndexing h c nz r)) (.edge, .edge) h.toNat h.toNat e no (a, b) ↔
      (if e then h + c < a ∧ a ≤ h + c + h else a < h ∧ 0 ≤ a) ∧ (if no then h + c < b ∧ b ≤ h + c + h else b < h ∧ 0 ≤ b) := by
    intro e no a b
    cases e <;> cases no <;>
      simp [Corner.InCorner, Corner.Beyond, Corner.disp, Corner.vertex, Corner.Place.pos, Corner.gridExt, CubePart.gridIndexing] <;> omega
  refine ⟨_, by unfold CubePart.completeGrid; rw [ho]; rfl, ?_⟩
  intro a b k ha ha' hb hb' hk hk'
  have hkk : ((k.toNat : Nat) : Int) = k := Int.toNat_of_nonneg hk
  simp only [Qty.fillCornersB]
  unfold continued
  cases hfold : fold (n * c) t (2 * (c * i + (a - h)) - n * c) (2 * (c * j + (b - h)) - n * c) with
  | some P =>
    refine ⟨P, rfl, ?_⟩
    have := hf.2 (a, b) k.toNat (.inl (fun e no hcor hcc => by
      rw [edges] at hcor
      rw [hin] at hcc
      unfold fold at hfold
      rw [if_pos] at hfold
      · cases hfold
      · cases e <;> cases no <;> simp at hcor hcc <;> omega))
    refine this.symm ▸ ?_
    simp only [hkk]
    exact mid a b k ha ha' hb hb' hk hk' P hfold
  | none =>
    have hout : (2 * (c * i + (a - h)) - n * c > n * c ∨ 2 * (c * i + (a - h)) - n * c < -(n * c)) ∧
        (2 * (c * j + (b - h)) - n * c > n * c ∨ 2 * (c * j + (b - h)) - n * c < -(n * c)) := by
      by_contra hcon
      unfold fold at hfold
      rw [if_neg hcon] at hfold
      split at hfold
      · cases hfold
      · split at hfold
        · cases hfold
        · split at hfold
          · cases hfold
          · split at hfold <;> cases hfold
    generalize hL : n * c = L at *
    generalize hci : c * i = ci at *
    generalize hcj : c * j = cj at *
    -- which corner
    have key : ∀ e no : Bool, (if e then i = n - 1 ∧ 2 * (ci + (a - h)) - L > L else i = 0 ∧ 2 * (ci + (a - h)) - L < -L) →
        (if no then j = n - 1 ∧ 2 * (cj + (b - h)) - L > L else j = 0 ∧ 2 * (cj + (b - h)) - L < -L) →
        ∃ P, fold L t (turned L (2 * (ci + (a - h)) - L) (2 * (cj + (b - h)) - L)).1
            (turned L (2 * (ci + (a - h)) - L) (2 * (cj + (b - h)) - L)).2 = some P ∧ ∃ v,
          Corner.fillCorners2dB ((squareCube n).gridIndexing h c nz r) (c + 1 + 2 * h) true one
            (fun _ i j m => q.data.get [i, j, (m : Int)]) .x a b k.toNat = v ∧ Owned n c x y k P v := by
      intro e no he hno
      have hcor : Corner.hasCorner ((squareCube n).gridIndexing h c nz r) e no = true := by
        rw [edges]; cases e <;> cases no <;> simp at he hno ⊢ <;> omega
      have hcc := (hin e no a b).2 (by cases e <;> cases no <;> simp at he hno ⊢ <;> omega)
      -- the source, as an index
      let a' : Int := if e then h + c + (if no then b - (h + c) else h - b) else h - (if no then b - (h + c) else h - b)
      let b' : Int := if no then h + c - (if e then a - (h + c) else h - a) else h + (if e then a - (h + c) else h - a)
      have hsrc : Corner.IsSource (Corner.gridExt ((squareCube n).gridIndexing h c nz r)) .x (.edge, .edge) (.edge, .edge) e no (a, b) (a', b') := by
        cases e <;> cases no <;> simp at he hno <;>
          simp [Corner.IsSource, Corner.disp, Corner.vertex, Corner.Place.pos, Corner.gridExt, CubePart.gridIndexing, Corner.turnLeft,
            Corner.turnRight, Corner.SameSide, a', b'] <;> omega
      have hnew := hf.1 e no (a, b) (a', b') hcor hcc hsrc k.toNat rfl
      have hu : (turned L (2 * (ci + (a - h)) - L) (2 * (cj + (b - h)) - L)) = (2 * (ci + (a' - h)) - L, 2 * (cj + (b' - h)) - L) := by
        refine turned_index L h c ci cj a b e no ?_ ?_ (by omega) <;> cases e <;> cases no <;>
          simp only [Bool.false_eq_true, if_false, if_true] at he hno ⊢ <;> omega
      have hs : ∃ P, fold L t (2 * (ci + (a' - h)) - L) (2 * (cj + (b' - h)) - L) = some P := by
        unfold fold
        rw [if_neg (by cases e <;> cases no <;> simp [a', b'] at he hno ⊢ <;> omega)]
        split
        · exact ⟨_, rfl⟩
        · split
          · exact ⟨_, rfl⟩
          · split
            · exact ⟨_, rfl⟩
            · split <;> exact ⟨_, rfl⟩
      obtain ⟨P, hP⟩ := hs
      refine ⟨P, by rw [hu]; exact hP, _, hnew, ?_⟩
      simp only [hkk]
      exact mid a' b' k (by cases e <;> cases no <;> simp [a'] at he hno ⊢ <;> omega)
        (by cases e <;> cases no <;> simp [a'] at he hno ⊢ <;> omega) (by cases e <;> cases no <;> simp [b'] at he hno ⊢ <;> omega)
        (by cases e <;> cases no <;> simp [b'] at he hno ⊢ <;> omega) hk hk' P hP
    rcases hout.1 with e1 | e1 <;> rcases hout.2 with e2 | e2
    · obtain ⟨P, p1, v, p2, p3⟩ := key true true ⟨by omega, e1⟩ ⟨by omega, e2⟩
      exact ⟨P, p1, p2.symm ▸ p3⟩
    · obtain ⟨P, p1, v, p2, p3⟩ := key true false ⟨by omega, e1⟩ ⟨by omega, e2⟩
      exact ⟨P, p1, p2.symm ▸ p3⟩
    · obtain ⟨P, p1, v, p2, p3⟩ := key false true ⟨by omega, e1⟩ ⟨by omega, e2⟩
      exact ⟨P, p1, p2.symm ▸ p3⟩
    · obtain ⟨P, p1, v, p2, p3⟩ := key false false ⟨by omega, e1⟩ ⟨by omega, e2⟩
      exact ⟨P, p1, p2.symm ▸ p3⟩

/-- **C144**: so if the values given to the ranks are those of two functions on the cube (longitude and latitude, in
degrees), every point of the array of every rank holds the value of the function, times the factor for radians, at the
point's place on the cube. -/
theorem C144_external (n h c nz : Int) (hn : 0 < n) (hh : 0 < h) (hc : h ≤ c) (junk : Nat → K) (rad one : K)
    (f : Int → V3 → K) (x y : Int → Int → Int → K) (old : Int → List Int → K)
    (hxy : ∀ s t j i, 0 ≤ s → s < (squareCube n).totalRanks → (squareCube n).At s t j i → ∀ a b, 0 ≤ a → a ≤ c → 0 ≤ b → b ≤ c →
      x s a b = f 0 (onCube (n * c) t (2 * (c * i + a) - n * c) (2 * (c * j + b) - n * c)) ∧
      y s a b = f 1 (onCube (n * c) t (2 * (c * i + a) - n * c) (2 * (c * j + b) - n * c)))
    (r t j i : Int) (h0 : 0 ≤ r) (h1 : r < (squareCube n).totalRanks) (hpos : (squareCube n).At r t j i) :
    ∃ q, (squareCube n).fromExternal junk h c nz rad one x y old r = .ok [q] ∧
      ∀ a b k, 0 ≤ a → a < c + 1 + 2 * h → 0 ≤ b → b < c + 1 + 2 * h → 0 ≤ k → k < 2 →
        ∃ P, continued (n * c) t (2 * (c * i + (a - h)) - n * c) (2 * (c * j + (b - h)) - n * c) = some P ∧
          q.data.get [a, b, k] = rad * f k P := by
  obtain ⟨q, hq, H⟩ := C144_owner n h c nz hn hh hc junk one (fun s a b => rad * x s a b) (fun s a b => rad * y s a b) old
    r t j i h0 h1 hpos
  refine ⟨q, hq, fun a b k ha ha' hb hb' hk hk' => ?_⟩
  obtain ⟨P, hP, s, t', j', i', a', b', s0, s1, hs, g1, g2, g3, g4, on, hv⟩ := H a b k ha ha' hb hb' hk hk'
  refine ⟨P, hP, hv.trans ?_⟩
  have e := hxy s t' j' i' s0 s1 hs a' b' g1 g2 g3 g4
  rw [on] at e
  rcases (show k = 0 ∨ k = 1 by omega) with rfl | rfl
  · simp only [if_true]; rw [e.1]
  · rw [if_neg (by decide)]; show rad * y s a' b' = _; rw [e.2]

/-! ### A cube with a point function -/

/-- Two functions on the cube. -/
def exPlace (k : Int) (P : V3) : Int := if k = 0 then P.x + 10 * P.y + 100 * P.z else P.x - 20 * P.y + 300 * P.z

/-- What is given to the ranks of a cube with one rank of two by two cells for each tile. -/
def exGiven (k s a b : Int) : Int := exPlace k (onCube 2 s (2 * a - 2) (2 * b - 2))

/-- It is that of the functions. -/
theorem exGiven_spec : ∀ s t j i, 0 ≤ s → s < (squareCube 1).totalRanks → (squareCube 1).At s t j i → ∀ a b, 0 ≤ a → a ≤ 2 → 0 ≤ b → b ≤ 2 →
    exGiven 0 s a b = exPlace 0 (onCube (1 * 2) t (2 * (2 * i + a) - 1 * 2) (2 * (2 * j + b) - 1 * 2)) ∧
    exGiven 1 s a b = exPlace 1 (onCube (1 * 2) t (2 * (2 * i + a) - 1 * 2) (2 * (2 * j + b) - 1 * 2)) := by
  intro s t j i s0 s1 hs a b _ _ _ _
  obtain ⟨p, hp, -, -, rfl⟩ := exists_pos (n := 1) (by omega) s0 s1
  obtain ⟨rfl, rfl, rfl⟩ := (at_iff hp t j i).1 hs
  obtain ⟨q1, q2, q3, q4⟩ := hp
  have e1 : p.i = 0 := by omega
  have e2 : p.j = 0 := by omega
  have e3 : p.rank 1 = p.t := by simp [Pos.rank, rk, e1, e2]
  rw [e1, e2, e3]
  simp [exGiven]

/-- The south-west corner of tile 0: the point turned about the corner, from tile 4. -/
example : ((squareCube 1).fromExternal (fun _ => 7) 1 2 5 3 1 (exGiven 0) (exGiven 1) (fun _ _ => 0) 0).map
      (fun out => out.map fun q => (q.data.get [0, 0, 0], q.data.get [0, 2, 1])) =
    .ok [((continued 2 0 (-4) (-4)).elim 0 fun P => 3 * exPlace 0 P, (continued 2 0 (-4) 0).elim 0 fun P => 3 * exPlace 1 P)] := by
  decide +kernel

end NDSL
