import Verif.Model.CentreGrid
import Verif.Props.ExternalGrid

/-! C146: the grid of cell centres. -/
namespace NDSL
open NArr Indexing

variable {K : Type} [Inhabited K] [Mul K]

/-- The other point that may stand for a point beyond a corner: a quarter turn the other way, staying beyond the same south
or north edge. -/
def turnedBack (L u v : Int) : Int × Int :=
  (if u > L then L - overshoot L v else -L + overshoot L v, if v > L then L + overshoot L u else -L - overshoot L u)

/-- The place on the cube of a point of the continued sheet of a tile, beyond a corner that of the point turned the other
way. -/
def continuedBack (L t u v : Int) : Option V3 :=
  match fold L t u v with
  | some P => some P
  | none => fold L t (turnedBack L u v).1 (turnedBack L u v).2

theorem centre_fields (n h c : Int) (hh : 0 ≤ h) (hc : 0 ≤ c) (x y : Int → Int → Int → K) (old : Int → List Int → K) :
    CubeFields n h (fun i => c * i) fun s => ([centreView h c (x s) (y s) (old s)] : List (Qty K)).map Qty.ds where
  fields := by
    intro s t j i _ _ _ ds hds
    rw [List.map_singleton, List.mem_singleton] at hds
    subst hds
    have e : ∀ i : Int, c * (i + 1) - c * i = c := by intro i; ring
    simp only [e, centreView, centreSpecs]
    refine ⟨⟨rfl, rfl⟩, ?_, ?_, ?_, ?_⟩ <;>
      simp [Dim.isI, Dim.isJ, DimSpec.stag, Dim.isInterface, Dim.isHorizontal] <;> omega
  same := by
    intro s s' _ _ _ _
    exact .cons ⟨rfl, .cons (fun _ => rfl) (.cons (fun _ => rfl) (.cons (fun _ => rfl) .nil))⟩ .nil

theorem centre_coord (h c L ci a b k : Int) : coordI L ci (centreSpecs h c) [a, b, k] = 2 * (ci + (a - h)) + 1 - L ∧
    coordJ L ci (centreSpecs h c) [a, b, k] = 2 * (ci + (b - h)) + 1 - L ∧ levels (centreSpecs h c) [a, b, k] = [k] := by
  refine ⟨?_, ?_, ?_⟩
  · simp [coordI, centreSpecs, Dim.isI, DimSpec.stag, Dim.isInterface]
  · simp [coordJ, centreSpecs, Dim.isJ, DimSpec.stag, Dim.isInterface]
  · simp [levels, centreSpecs, Dim.isHorizontal, Dim.isI, Dim.isJ]

theorem centre_inside (h c : Int) (g : List Int) : InCompute (centreSpecs h c) g ↔
    ∃ a b k, g = [a, b, k] ∧ h ≤ a ∧ a < h + c ∧ h ≤ b ∧ b < h + c ∧ 0 ≤ k ∧ k < 2 := by
  unfold InCompute centreSpecs
  constructor
  · intro hg
    cases hg with
    | cons p hg => cases hg with
      | cons q hg => cases hg with
        | cons r hg =>
          cases hg
          simp only at p q r
          exact ⟨_, _, _, rfl, p.1, p.2, q.1, q.2, r.1, by omega⟩
  · rintro ⟨a, b, k, rfl, h1, h2, h3, h4, h5, h6⟩
    exact .cons ⟨h1, h2⟩ (.cons ⟨h3, h4⟩ (.cons ⟨h5, by simpa using h6⟩ .nil))

theorem centre_widened (h c a b k : Int) (ha : 0 ≤ a) (ha' : a < c + 2 * h) (hb : 0 ≤ b) (hb' : b < c + 2 * h)
    (hk : 0 ≤ k) (hk' : k < 2) : InWidened h (centreSpecs h c) [a, b, k] := by
  unfold InWidened centreSpecs
  refine .cons ?_ (.cons ?_ (.cons ?_ .nil)) <;> simp [Dim.isHorizontal, Dim.isI, Dim.isJ] <;> omega

/-- The index of the turned point. -/
theorem centre_turned (L h c ci cj a b : Int) (e no : Bool)
    (he : if e then ci = L - c ∧ 2 * (ci + (a - h)) + 1 - L > L else ci = 0 ∧ 2 * (ci + (a - h)) + 1 - L < -L)
    (hno : if no then cj = L - c ∧ 2 * (cj + (b - h)) + 1 - L > L else cj = 0 ∧ 2 * (cj + (b - h)) + 1 - L < -L) (hL : 0 ≤ L) :
    turned L (2 * (ci + (a - h)) + 1 - L) (2 * (cj + (b - h)) + 1 - L) =
      (2 * (ci + ((if e then h + c + (if no then b - (h + c) else h - 1 - b) else h - 1 - (if no then b - (h + c) else h - 1 - b)) - h)) + 1 - L,
       2 * (cj + ((if no then h + c - 1 - (if e then a - (h + c) else h - 1 - a) else h + (if e then a - (h + c) else h - 1 - a)) - h)) + 1 - L) := by
  cases e <;> cases no <;> simp only [Bool.false_eq_true, if_false, if_true] at he hno ⊢ <;>
    simp only [turned, overshoot, Prod.mk.injEq] <;> constructor <;> (repeat' split) <;> omega

/-- The index of the point turned the other way. -/
theorem centre_turnedBack (L h c ci cj a b : Int) (e no : Bool)
    (he : if e then ci = L - c ∧ 2 * (ci + (a - h)) + 1 - L > L else ci = 0 ∧ 2 * (ci + (a - h)) + 1 - L < -L)
    (hno : if no then cj = L - c ∧ 2 * (cj + (b - h)) + 1 - L > L else cj = 0 ∧ 2 * (cj + (b - h)) + 1 - L < -L) (hL : 0 ≤ L) :
    turnedBack L (2 * (ci + (a - h)) + 1 - L) (2 * (cj + (b - h)) + 1 - L) =
      (2 * (ci + ((if e then h + c - 1 - (if no then b - (h + c) else h - 1 - b) else h + (if no then b - (h + c) else h - 1 - b)) - h)) + 1 - L,
       2 * (cj + ((if no then h + c + (if e then a - (h + c) else h - 1 - a) else h - 1 - (if e then a - (h + c) else h - 1 - a)) - h)) + 1 - L) := by
  cases e <;> cases no <;> simp only [Bool.false_eq_true, if_false, if_true] at he hno ⊢ <;>
    simp only [turnedBack, overshoot, Prod.mk.injEq] <;> constructor <;> (repeat' split) <;> omega

/-- The value at a point on the cube that some rank has among those of the centres of its own cells. -/
def OwnedCell (n c : Int) (x y : Int → Int → Int → K) (k : Int) (P : V3) (v : K) : Prop :=
  ∃ s t j i a b, 0 ≤ s ∧ s < (squareCube n).totalRanks ∧ (squareCube n).At s t j i ∧ 0 ≤ a ∧ a < c ∧ 0 ≤ b ∧ b < c ∧
    onCube (n * c) t (2 * (c * i + a) + 1 - n * c) (2 * (c * j + b) + 1 - n * c) = P ∧ v = if k = 0 then x s a b else y s a b

set_option maxHeartbeats 1000000 in
/-- After the halo update. -/
theorem centre_halo (n h c : Int) (hn : 0 < n) (hh : 0 < h) (hc : h ≤ c) (junk : Nat → K)
    (x y : Int → Int → Int → K) (old : Int → List Int → K)
    (r t j i : Int) (h0 : 0 ≤ r) (h1 : r < (squareCube n).totalRanks) (hpos : (squareCube n).At r t j i) :
    ∃ q, (squareCube n).haloUpdate junk h (fun s => [centreView h c (x s) (y s) (old s)]) r = .ok [q] ∧
      ∀ a b k, 0 ≤ a → a < c + 2 * h → 0 ≤ b → b < c + 2 * h → 0 ≤ k → k < 2 → ∀ P,
      fold (n * c) t (2 * (c * i + (a - h)) + 1 - n * c) (2 * (c * j + (b - h)) + 1 - n * c) = some P →
      OwnedCell n c x y k P (q.data.get [a, b, k]) := by
  have hc0 : 0 ≤ c := by omega
  have hij : (0 ≤ i ∧ i < n) ∧ 0 ≤ j ∧ j < n := by
    obtain ⟨p, hp, -, -, rfl⟩ := exists_pos hn h0 h1
    obtain ⟨-, rfl, rfl⟩ := (at_iff hp t j i).1 hpos
    exact ⟨⟨hp.2.2.1, hp.2.2.2⟩, hp.1, hp.2.1⟩
  obtain ⟨out, ho, hl, H⟩ := C19_cube_halo_fill n h (n * c) hn hh (fun i => c * i) (external_axis n c hc0)
    (fun i _ _ => by have : c * (i + 1) = c * i + c := by ring
                     omega) junk
    (fun s => [centreView h c (x s) (y s) (old s)]) (centre_fields n h c (by omega) hc0 x y old)
    (fun s _ _ q hq => by
      rw [List.mem_singleton] at hq; subst hq
      unfold SquareStagger centreView centreSpecs
      simp [Dim.isI, Dim.isJ, DimSpec.stag, Dim.isInterface]) r t j i h0 h1 hpos (by simp)
  have KP := C20_halo_update_keeps _ junk h (by omega) _ r out ho
  obtain ⟨q, rfl⟩ : ∃ q, out = [q] := by
    match out, hl with
    | [q], _ => exact ⟨q, rfl⟩
  obtain ⟨-, -, H⟩ := H 0 _ q rfl rfl
  obtain ⟨-, -, KP⟩ := KP.2 0 _ q rfl rfl
  have KP := KP ⟨rfl, rfl⟩
    (by simp [centreView, centreSpecs]; omega)
  have hval : ∀ s t j i, 0 ≤ s → s < (squareCube n).totalRanks → (squareCube n).At s t j i → ∀ a b k, h ≤ a → a < h + c → h ≤ b → b < h + c → 0 ≤ k → k < 2 →
      OwnedCell n c x y k (onCube (n * c) t (2 * (c * i + (a - h)) + 1 - n * c) (2 * (c * j + (b - h)) + 1 - n * c))
        ((centreView h c (x s) (y s) (old s)).data.get [a, b, k]) := by
    intro s t j i s0 s1 hs a b k ha ha' hb hb' hk hk'
    refine ⟨s, t, j, i, a - h, b - h, s0, s1, hs, by omega, by omega, by omega, by omega, rfl, ?_⟩
    simp only [centreView]
    rw [if_pos ⟨by omega, by omega, by omega, by omega⟩]
    rcases (show k = 0 ∨ k = 1 by omega) with rfl | rfl
    · rfl
    · rfl
  obtain ⟨mi, mi'⟩ := multiples n c i hij.1.1 hij.1.2 hc0
  obtain ⟨mj, mj'⟩ := multiples n c j hij.2.1 hij.2.2 hc0
  refine ⟨q, ho, ?_⟩
  intro a b k ha ha' hb hb' hk hk' P hP
  by_cases hin : InCompute (centreSpecs h c) [a, b, k]
  · rw [KP _ (.inl hin)]
    obtain ⟨a', b', k', e, g1, g2, g3, g4, g5, g6⟩ := (centre_inside h c _).1 hin
    simp only [List.cons.injEq, and_true] at e
    obtain ⟨rfl, rfl, rfl⟩ := e
    have hv := hval r t j i h0 h1 hpos a b k g1 g2 g3 g4 g5 g6
    unfold fold at hP
    rw [if_neg (by omega), if_neg (by omega), if_neg (by omega), if_neg (by omega), if_neg (by omega)] at hP
    rw [Option.some.inj hP] at hv
    exact hv
  · have F := H [a, b, k] (centre_widened h c a b k ha ha' hb hb' hk hk') hin
    have ec := centre_coord h c (n * c)
    simp only [centreView] at F
    rw [(ec (c * i) a b k).1, (ec (c * j) a b k).2.1, hP] at F
    obtain ⟨s, t', j', i', qs, gs, s0, s1, hs, e, inn, on, lv, val⟩ := F
    simp only [List.getElem?_cons_zero, Option.some.injEq] at e
    subst e
    obtain ⟨a', b', k', rfl, g1, g2, g3, g4, g5, g6⟩ := (centre_inside h c _).1 inn
    have lv' := lv
    rw [(ec 0 a b k).2.2] at lv'
    have lk : k' = k := by
      have := (ec 0 a' b' k').2.2
      exact (List.cons.inj ((this.symm.trans lv'))).1
    subst lk
    have hv := hval s t' j' i' s0 s1 hs a' b' k' g1 g2 g3 g4 g5 g6
    rw [← (ec (c * i') a' b' k').1, ← (ec (c * j') a' b' k').2.1] at hv
    have on' : onCube (n * c) t' (coordI (n * c) (c * i') (centreSpecs h c) [a', b', k']) (coordJ (n * c) (c * j') (centreSpecs h c) [a', b', k']) = P := on
    rw [on'] at hv
    exact val.symm ▸ hv

set_option maxHeartbeats 1000000 in
/-- The filling of the corners, in one direction, of values `w` known where the sheet of the tile goes. -/
theorem centre_fill (n h c nz : Int) (hn : 0 < n) (hh : 0 < h) (hc : h ≤ c) (hz : 0 < nz) (one : K) (xdir : Bool)
    (w : Int → Int → K) (Good : V3 → K → Prop)
    (r t j i : Int) (h0 : 0 ≤ r) (h1 : r < (squareCube n).totalRanks) (hpos : (squareCube n).At r t j i)
    (mid : ∀ a b, 0 ≤ a → a < c + 2 * h → 0 ≤ b → b < c + 2 * h → ∀ P,
      fold (n * c) t (2 * (c * i + (a - h)) + 1 - n * c) (2 * (c * j + (b - h)) + 1 - n * c) = some P → Good P (w a b))
    (a b : Int) (ha : 0 ≤ a) (ha' : a < c + 2 * h) (hb : 0 ≤ b) (hb' : b < c + 2 * h) :
    ∃ P, (if xdir then continued else continuedBack) (n * c) t (2 * (c * i + (a - h)) + 1 - n * c) (2 * (c * j + (b - h)) + 1 - n * c) = some P ∧
      Good P (Corner.fillCorners2dA ((squareCube n).gridIndexing h c nz r) (c + 1 + 2 * h) xdir one (fun _ i j _ => w i j) .x a b 0) := by
  have hc0 : 0 ≤ c := by omega
  have hij : (0 ≤ i ∧ i < n) ∧ 0 ≤ j ∧ j < n := by
    obtain ⟨p, hp, -, -, rfl⟩ := exists_pos hn h0 h1
    obtain ⟨-, rfl, rfl⟩ := (at_iff hp t j i).1 hpos
    exact ⟨⟨hp.2.2.1, hp.2.2.2⟩, hp.1, hp.2.1⟩
  obtain ⟨mi, mi'⟩ := multiples n c i hij.1.1 hij.1.2 hc0
  obtain ⟨mj, mj'⟩ := multiples n c j hij.2.1 hij.2.2 hc0
  have hsub : (squareCube n).tile.subtileIndex r = (j, i) := hpos.2
  have edges : ∀ e no, Corner.hasCorner ((squareCube n).gridIndexing h c nz r) e no = true ↔
      (if e then i = n - 1 else i = 0) ∧ (if no then j = n - 1 else j = 0) := by
    intro e no
    simp only [Corner.hasCorner, CubePart.gridIndexing, TilePart.onBottom, TilePart.onTop, TilePart.onLeft, TilePart.onRight,
      onTileBottom, onTileTop, onTileLeft, onTileRight, hsub]
    cases e <;> cases no <;> simp
  have hf : Corner.FilledAt ((squareCube n).gridIndexing h c nz r) (Corner.kslice ((squareCube n).gridIndexing h c nz r))
      (if xdir then .x else .y) (.centre, .centre) (.centre, .centre) h.toNat (fun _ _ v => v) (fun i j _ => w i j) (fun i j _ => w i j)
      (Corner.fillCorners2dA ((squareCube n).gridIndexing h c nz r) (c + 1 + 2 * h) xdir one (fun _ i j _ => w i j) .x) := by
    have e1 : ((squareCube n).gridIndexing h c nz r).nHalo = h.toNat := by simp [CubePart.gridIndexing]; omega
    have e2 : Corner.AtLeast (Corner.gridExt ((squareCube n).gridIndexing h c nz r)) 1 := by
      simp [Corner.AtLeast, Corner.gridExt, CubePart.gridIndexing]; omega
    have e3 : Corner.AtLeast (Corner.gridExt ((squareCube n).gridIndexing h c nz r)) h.toNat := by
      simp [Corner.AtLeast, Corner.gridExt, CubePart.gridIndexing]; omega
    cases xdir
    · exact Corner.C51_agrid_y _ _ one (fun _ i j _ => w i j) h.toNat e1 e2 e3
    · exact Corner.C51_agrid_x _ _ one (fun _ i j _ => w i j) h.toNat e1 e2 e3
  have hlev : Corner.kslice ((squareCube n).gridIndexing h c nz r) 0 = true := by
    simp [Corner.kslice, CubePart.gridIndexing]; omega
  have hin : ∀ e no a b, Corner.InCorner (Corner.gridExt ((squareCube n).gridIndexing h c nz r)) (.centre, .centre) h.toNat h.toNat e no (a, b) ↔
      (if e then h + c ≤ a ∧ a < h + c + h else a < h ∧ 0 ≤ a) ∧ (if no then h + c ≤ b ∧ b < h + c + h else b < h ∧ 0 ≤ b) := by
    intro e no a b
    cases e <;> cases no <;>
      simp [Corner.InCorner, Corner.Beyond, Corner.disp, Corner.vertex, Corner.Place.pos, Corner.gridExt, CubePart.gridIndexing] <;> omega
  cases hfold : fold (n * c) t (2 * (c * i + (a - h)) + 1 - n * c) (2 * (c * j + (b - h)) + 1 - n * c) with
  | some P =>
    refine ⟨P, by cases xdir <;> simp [continued, continuedBack, hfold], ?_⟩
    have := hf.2 (a, b) 0 (.inl (fun e no hcor hcc => by
      rw [edges] at hcor
      rw [hin] at hcc
      unfold fold at hfold
      rw [if_pos] at hfold
      · cases hfold
      · cases e <;> cases no <;> simp at hcor hcc <;> omega))
    refine this.symm ▸ ?_
    exact mid a b ha ha' hb hb' P hfold
  | none =>
    have hout : (2 * (c * i + (a - h)) + 1 - n * c > n * c ∨ 2 * (c * i + (a - h)) + 1 - n * c < -(n * c)) ∧
        (2 * (c * j + (b - h)) + 1 - n * c > n * c ∨ 2 * (c * j + (b - h)) + 1 - n * c < -(n * c)) := by
      by_contra hcon
      unfold fold at hfold
      rw [if_neg hcon] at hfold
      split at hfold
      · cases hfold
      · split at hfold
        · cases hfold
        · split at hfold
          · cases hfold
          · split at hfold <;> cases hfold
    have hcon : (if xdir then continued else continuedBack) (n * c) t (2 * (c * i + (a - h)) + 1 - n * c) (2 * (c * j + (b - h)) + 1 - n * c) =
        fold (n * c) t ((if xdir then turned else turnedBack) (n * c) (2 * (c * i + (a - h)) + 1 - n * c) (2 * (c * j + (b - h)) + 1 - n * c)).1
          ((if xdir then turned else turnedBack) (n * c) (2 * (c * i + (a - h)) + 1 - n * c) (2 * (c * j + (b - h)) + 1 - n * c)).2 := by
      cases xdir <;> simp [continued, continuedBack, hfold]
    rw [hcon]
    clear hcon hfold
    generalize hL : n * c = L at *
    generalize hci : c * i = ci at *
    generalize hcj : c * j = cj at *
    have key : ∀ e no : Bool, (if e then i = n - 1 ∧ 2 * (ci + (a - h)) + 1 - L > L else i = 0 ∧ 2 * (ci + (a - h)) + 1 - L < -L) →
        (if no then j = n - 1 ∧ 2 * (cj + (b - h)) + 1 - L > L else j = 0 ∧ 2 * (cj + (b - h)) + 1 - L < -L) →
        ∃ P, fold L t ((if xdir then turned else turnedBack) L (2 * (ci + (a - h)) + 1 - L) (2 * (cj + (b - h)) + 1 - L)).1
            ((if xdir then turned else turnedBack) L (2 * (ci + (a - h)) + 1 - L) (2 * (cj + (b - h)) + 1 - L)).2 = some P ∧ ∃ v,
          Corner.fillCorners2dA ((squareCube n).gridIndexing h c nz r) (c + 1 + 2 * h) xdir one (fun _ i j _ => w i j) .x a b 0 = v ∧ Good P v := by
      intro e no he hno
      have hcor : Corner.hasCorner ((squareCube n).gridIndexing h c nz r) e no = true := by
        rw [edges]; cases e <;> cases no <;> simp at he hno ⊢ <;> omega
      have hcc := (hin e no a b).2 (by cases e <;> cases no <;> simp at he hno ⊢ <;> omega)
      -- the source, as an index
      have src : ∀ a' b' : Int, 0 ≤ a' → a' < c + 2 * h → 0 ≤ b' → b' < c + 2 * h →
          ¬((2 * (ci + (a' - h)) + 1 - L > L ∨ 2 * (ci + (a' - h)) + 1 - L < -L) ∧ (2 * (cj + (b' - h)) + 1 - L > L ∨ 2 * (cj + (b' - h)) + 1 - L < -L)) →
          Corner.IsSource (Corner.gridExt ((squareCube n).gridIndexing h c nz r)) (if xdir then .x else .y) (.centre, .centre) (.centre, .centre) e no (a, b) (a', b') →
          (if xdir then turned else turnedBack) L (2 * (ci + (a - h)) + 1 - L) (2 * (cj + (b - h)) + 1 - L) = (2 * (ci + (a' - h)) + 1 - L, 2 * (cj + (b' - h)) + 1 - L) →
          ∃ P, fold L t ((if xdir then turned else turnedBack) L (2 * (ci + (a - h)) + 1 - L) (2 * (cj + (b - h)) + 1 - L)).1
            ((if xdir then turned else turnedBack) L (2 * (ci + (a - h)) + 1 - L) (2 * (cj + (b - h)) + 1 - L)).2 = some P ∧ ∃ v,
          Corner.fillCorners2dA ((squareCube n).gridIndexing h c nz r) (c + 1 + 2 * h) xdir one (fun _ i j _ => w i j) .x a b 0 = v ∧ Good P v := by
        intro a' b' x1 x2 x3 x4 hno' hsrc hu
        have hnew := hf.1 e no (a, b) (a', b') hcor hcc hsrc 0 hlev
        have hs : ∃ P, fold L t (2 * (ci + (a' - h)) + 1 - L) (2 * (cj + (b' - h)) + 1 - L) = some P := by
          unfold fold
          rw [if_neg hno']
          split
          · exact ⟨_, rfl⟩
          · split
            · exact ⟨_, rfl⟩
            · split
              · exact ⟨_, rfl⟩
              · split <;> exact ⟨_, rfl⟩
        obtain ⟨P, hP⟩ := hs
        exact ⟨P, by rw [hu]; exact hP, _, hnew, mid a' b' x1 x2 x3 x4 P hP⟩
      cases xdir
      · refine src (if e then h + c - 1 - (if no then b - (h + c) else h - 1 - b) else h + (if no then b - (h + c) else h - 1 - b))
          (if no then h + c + (if e then a - (h + c) else h - 1 - a) else h - 1 - (if e then a - (h + c) else h - 1 - a))
          ?_ ?_ ?_ ?_ ?_ ?_ ?_
        · cases e <;> cases no <;> simp at he hno ⊢ <;> omega
        · cases e <;> cases no <;> simp at he hno ⊢ <;> omega
        · cases e <;> cases no <;> simp at he hno ⊢ <;> omega
        · cases e <;> cases no <;> simp at he hno ⊢ <;> omega
        · cases e <;> cases no <;> simp at he hno ⊢ <;> omega
        · cases e <;> cases no <;> simp at he hno <;>
            simp [Corner.IsSource, Corner.disp, Corner.vertex, Corner.Place.pos, Corner.gridExt, CubePart.gridIndexing, Corner.turnLeft,
              Corner.turnRight, Corner.SameSide] <;> omega
        · refine centre_turnedBack L h c ci cj a b e no ?_ ?_ (by omega) <;> cases e <;> cases no <;>
            simp only [Bool.false_eq_true, if_false, if_true] at he hno ⊢ <;> omega
      · refine src (if e then h + c + (if no then b - (h + c) else h - 1 - b) else h - 1 - (if no then b - (h + c) else h - 1 - b))
          (if no then h + c - 1 - (if e then a - (h + c) else h - 1 - a) else h + (if e then a - (h + c) else h - 1 - a))
          ?_ ?_ ?_ ?_ ?_ ?_ ?_
        · cases e <;> cases no <;> simp at he hno ⊢ <;> omega
        · cases e <;> cases no <;> simp at he hno ⊢ <;> omega
        · cases e <;> cases no <;> simp at he hno ⊢ <;> omega
        · cases e <;> cases no <;> simp at he hno ⊢ <;> omega
        · cases e <;> cases no <;> simp at he hno ⊢ <;> omega
        · cases e <;> cases no <;> simp at he hno <;>
            simp [Corner.IsSource, Corner.disp, Corner.vertex, Corner.Place.pos, Corner.gridExt, CubePart.gridIndexing, Corner.turnLeft,
              Corner.turnRight, Corner.SameSide] <;> omega
        · refine centre_turned L h c ci cj a b e no ?_ ?_ (by omega) <;> cases e <;> cases no <;>
            simp only [Bool.false_eq_true, if_false, if_true] at he hno ⊢ <;> omega
    rcases hout.1 with e1 | e1 <;> rcases hout.2 with e2 | e2
    · obtain ⟨P, p1, v, p2, p3⟩ := key true true ⟨by omega, e1⟩ ⟨by omega, e2⟩
      exact ⟨P, p1, p2.symm ▸ p3⟩
    · obtain ⟨P, p1, v, p2, p3⟩ := key true false ⟨by omega, e1⟩ ⟨by omega, e2⟩
      exact ⟨P, p1, p2.symm ▸ p3⟩
    · obtain ⟨P, p1, v, p2, p3⟩ := key false true ⟨by omega, e1⟩ ⟨by omega, e2⟩
      exact ⟨P, p1, p2.symm ▸ p3⟩
    · obtain ⟨P, p1, v, p2, p3⟩ := key false false ⟨by omega, e1⟩ ⟨by omega, e2⟩
      exact ⟨P, p1, p2.symm ▸ p3⟩

/-- **C146**: after the halo update and the filling of the corners, every cell of the array of every rank, halo and corners
included, holds the longitude and the latitude that a rank computed for its own cell at a place on the cube.  Beyond an edge of
the tile it is for both the place reached by continuing the sheet of the tile; beyond a corner of the tile the longitude is that
of the cell a quarter turn about the corner away, beyond the same west or east edge, and the latitude that of the cell a
quarter turn the other way, beyond the same south or north edge. -/
theorem C146_centres (n h c nz : Int) (hn : 0 < n) (hh : 0 < h) (hc : h ≤ c) (hz : 0 < nz) (junk : Nat → K) (one : K)
    (x y : Int → Int → Int → K) (old : Int → List Int → K)
    (r t j i : Int) (h0 : 0 ≤ r) (h1 : r < (squareCube n).totalRanks) (hpos : (squareCube n).At r t j i) :
    ∃ q, (squareCube n).initAgrid junk h c nz one x y old r = .ok [q] ∧
      ∀ a b, 0 ≤ a → a < c + 2 * h → 0 ≤ b → b < c + 2 * h →
        (∃ P, continued (n * c) t (2 * (c * i + (a - h)) + 1 - n * c) (2 * (c * j + (b - h)) + 1 - n * c) = some P ∧
          OwnedCell n c x y 0 P (q.data.get [a, b, 0])) ∧
        (∃ P, continuedBack (n * c) t (2 * (c * i + (a - h)) + 1 - n * c) (2 * (c * j + (b - h)) + 1 - n * c) = some P ∧
          OwnedCell n c x y 1 P (q.data.get [a, b, 1])) := by
  obtain ⟨q, hq, mid⟩ := centre_halo n h c hn hh hc junk x y old r t j i h0 h1 hpos
  refine ⟨_, by unfold CubePart.initAgrid; rw [hq]; rfl, fun a b ha ha' hb hb' => ⟨?_, ?_⟩⟩
  · exact centre_fill n h c nz hn hh hc hz one true (fun i j => q.data.get [i, j, 0]) (OwnedCell n c x y 0) r t j i h0 h1 hpos
      (fun a b g1 g2 g3 g4 P hP => mid a b 0 g1 g2 g3 g4 (by decide) (by decide) P hP) a b ha ha' hb hb'
  · exact centre_fill n h c nz hn hh hc hz one false (fun i j => q.data.get [i, j, 1]) (OwnedCell n c x y 1) r t j i h0 h1 hpos
      (fun a b g1 g2 g3 g4 P hP => mid a b 1 g1 g2 g3 g4 (by decide) (by decide) P hP) a b ha ha' hb hb'

/-- **C146**: beyond an edge of the tile the two places are the same. -/
theorem C146_edges (L t u v : Int) (hin : (-L ≤ u ∧ u ≤ L) ∨ (-L ≤ v ∧ v ≤ L)) : continued L t u v = continuedBack L t u v := by
  unfold continued continuedBack
  cases hf : fold L t u v with
  | some P => rfl
  | none =>
    exfalso
    unfold fold at hf
    rw [if_neg (by omega)] at hf
    split at hf
    · cases hf
    · split at hf
      · cases hf
      · split at hf
        · cases hf
        · split at hf <;> cases hf

/-- **C146**, violation: beyond a corner of the tile they are not: longitude and latitude there are of different cells. -/
theorem C146_corners_violated (L t u v : Int) (ht : 0 ≤ t) (ht' : t < 6) (hu : L < u ∨ u < -L) (hv : L < v ∨ v < -L)
    (hu' : u < 3 * L) (hu'' : -(3 * L) < u) (hv' : v < 3 * L) (hv'' : -(3 * L) < v) :
    continued L t u v ≠ continuedBack L t u v := by
  have hf : fold L t u v = none := by
    unfold fold
    rw [if_pos ⟨hu, hv⟩]
  unfold continued continuedBack
  rw [hf]
  have h1 : ∃ du dv : Int, (du = 1 ∨ du = -1) ∧ (dv = 1 ∨ dv = -1) ∧ ∃ ou ov : Int, 0 < ou ∧ 0 < ov ∧ ou < 2 * L ∧ ov < 2 * L ∧
      u = du * (L + ou) ∧ v = dv * (L + ov) := by
    rcases hu with hu | hu <;> rcases hv with hv | hv
    · exact ⟨1, 1, by omega, by omega, u - L, v - L, by omega, by omega, by omega, by omega, by ring, by ring⟩
    · exact ⟨1, -1, by omega, by omega, u - L, -v - L, by omega, by omega, by omega, by omega, by ring, by ring⟩
    · exact ⟨-1, 1, by omega, by omega, -u - L, v - L, by omega, by omega, by omega, by omega, by ring, by ring⟩
    · exact ⟨-1, -1, by omega, by omega, -u - L, -v - L, by omega, by omega, by omega, by omega, by ring, by ring⟩
  obtain ⟨du, dv, hdu, hdv, ou, ov, p1, p2, p3, p4, rfl, rfl⟩ := h1
  have e1 : fold L t (turned L (du * (L + ou)) (dv * (L + ov))).1 (turned L (du * (L + ou)) (dv * (L + ov))).2 =
      some (((frame t).ex.smul (du * L)).add (((frame t).nrm.smul (L - ov)).add ((frame t).ey.smul (dv * (L - ou))))) := by
    rcases hdu with rfl | rfl <;> rcases hdv with rfl | rfl
    · have : turned L (1 * (L + ou)) (1 * (L + ov)) = (L + ov, L - ou) := by
        unfold turned overshoot; simp only [Prod.mk.injEq]; constructor <;> (repeat' split) <;> omega
      rw [this]; unfold fold; dsimp only
      rw [if_neg (by omega), if_pos (by omega)]; congr 4 <;> ring
    · have : turned L (1 * (L + ou)) (-1 * (L + ov)) = (L + ov, -L + ou) := by
        unfold turned overshoot; simp only [Prod.mk.injEq]; constructor <;> (repeat' split) <;> omega
      rw [this]; unfold fold; dsimp only
      rw [if_neg (by omega), if_pos (by omega)]; congr 4 <;> ring
    · have : turned L (-1 * (L + ou)) (1 * (L + ov)) = (-L - ov, L - ou) := by
        unfold turned overshoot; simp only [Prod.mk.injEq]; constructor <;> (repeat' split) <;> omega
      rw [this]; unfold fold; dsimp only
      rw [if_neg (by omega), if_neg (by omega), if_pos (by omega)]; congr 4 <;> ring
    · have : turned L (-1 * (L + ou)) (-1 * (L + ov)) = (-L - ov, -L + ou) := by
        unfold turned overshoot; simp only [Prod.mk.injEq]; constructor <;> (repeat' split) <;> omega
      rw [this]; unfold fold; dsimp only
      rw [if_neg (by omega), if_neg (by omega), if_pos (by omega)]; congr 4 <;> ring
  have e2 : fold L t (turnedBack L (du * (L + ou)) (dv * (L + ov))).1 (turnedBack L (du * (L + ou)) (dv * (L + ov))).2 =
      some (((frame t).ey.smul (dv * L)).add (((frame t).nrm.smul (L - ou)).add ((frame t).ex.smul (du * (L - ov))))) := by
    rcases hdu with rfl | rfl <;> rcases hdv with rfl | rfl
    · have : turnedBack L (1 * (L + ou)) (1 * (L + ov)) = (L - ov, L + ou) := by
        unfold turnedBack overshoot; simp only [Prod.mk.injEq]; constructor <;> (repeat' split) <;> omega
      rw [this]; unfold fold; dsimp only
      rw [if_neg (by omega), if_neg (by omega), if_neg (by omega), if_pos (by omega)]; congr 4 <;> ring
    · have : turnedBack L (1 * (L + ou)) (-1 * (L + ov)) = (L - ov, -L - ou) := by
        unfold turnedBack overshoot; simp only [Prod.mk.injEq]; constructor <;> (repeat' split) <;> omega
      rw [this]; unfold fold; dsimp only
      rw [if_neg (by omega), if_neg (by omega), if_neg (by omega), if_neg (by omega), if_pos (by omega)]; congr 4 <;> ring
    · have : turnedBack L (-1 * (L + ou)) (1 * (L + ov)) = (-L + ov, L + ou) := by
        unfold turnedBack overshoot; simp only [Prod.mk.injEq]; constructor <;> (repeat' split) <;> omega
      rw [this]; unfold fold; dsimp only
      rw [if_neg (by omega), if_neg (by omega), if_neg (by omega), if_pos (by omega)]; congr 4 <;> ring
    · have : turnedBack L (-1 * (L + ou)) (-1 * (L + ov)) = (-L + ov, -L - ou) := by
        unfold turnedBack overshoot; simp only [Prod.mk.injEq]; constructor <;> (repeat' split) <;> omega
      rw [this]; unfold fold; dsimp only
      rw [if_neg (by omega), if_neg (by omega), if_neg (by omega), if_neg (by omega), if_pos (by omega)]; congr 4 <;> ring
  show fold L t _ _ ≠ fold L t _ _
  rw [e1, e2]
  intro he
  have he := Option.some.inj he
  clear e1 e2 hf hu hv hu' hu'' hv' hv''
  rcases (show t = 0 ∨ t = 1 ∨ t = 2 ∨ t = 3 ∨ t = 4 ∨ t = 5 by omega) with rfl | rfl | rfl | rfl | rfl | rfl <;>
    rcases hdu with rfl | rfl <;> rcases hdv with rfl | rfl <;>
    simp [frame, V3.add, V3.smul] at he <;> omega

/-! ### A cube with a value for each cell -/

/-- Values by rank and cell. -/
def exCells (k s a b : Int) : Int := 1000 * s + 100 * a + 10 * b + k

/-- Beyond the south-west corner of tile 0, one rank of two by two cells for each tile: the longitude is of a cell of tile 4 and
the latitude of a cell of tile 5; beyond the edges both are of the same cell. -/
example : ((squareCube 1).initAgrid (fun _ => 7) 1 2 5 1 (exCells 0) (exCells 1) (fun _ _ => 0) 0).map
      (fun out => out.map fun q => (q.data.get [0, 0, 0], q.data.get [0, 0, 1], q.data.get [0, 1, 0], q.data.get [0, 1, 1])) =
    .ok [(4110, 5011, 4110, 4111)] := by
  decide +kernel

example : (squareCube 1).At 0 0 0 0 ∧ (0 : Int) < (squareCube 1).totalRanks := by
  unfold CubePart.At; decide

end NDSL
