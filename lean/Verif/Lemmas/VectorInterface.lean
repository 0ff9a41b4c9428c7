import Verif.Model.VectorInterface
import Verif.Spec.VectorInterface
import Verif.Lemmas.NDArray
import Verif.Lemmas.Exchange

/-! Edges of a quantity: region, contents, coordinates. -/
namespace NDSL
open NArr

/-- index with position `x` in the interface dimension, `y` in the other one and levels `ks` -/
def placeAt (sw : Bool) (x y : Int) (rest : List DimSpec) (ks : List Int) : List Int :=
  (if sw then [y, x] else [x, y]) ++ List.zipWith (fun d k => d.origin + k) rest ks

/-- an edge field with its dimensions named -/
structure Named (across along : Dim) (sw : Bool) (a b : DimSpec) (rest ds : List DimSpec) : Prop where
  eq : ds = if sw then b :: a :: rest else a :: b :: rest
  da : a.dim = across
  db : b.dim = along
  ne : across ≠ along
  ra : 0 ≤ a.origin ∧ 1 ≤ a.extent ∧ a.origin + a.extent ≤ a.shape
  rb : 0 ≤ b.origin ∧ 0 ≤ b.extent ∧ b.origin + b.extent ≤ b.shape
  rr : ∀ d ∈ rest, d.dim.isHorizontal = false ∧ 0 ≤ d.origin ∧ 0 ≤ d.extent ∧
    d.origin + d.extent ≤ d.shape

theorem EdgeField.named {across along : Dim} {m n : Int} {lv : List Int} {ds : List DimSpec}
    (E : EdgeField across along m n lv ds) (hne : across ≠ along) (hm : 1 ≤ m) :
    ∃ sw a b rest, Named across along sw a b rest ds ∧ a.extent = m ∧ b.extent = n ∧
      rest.map DimSpec.extent = lv := by
  obtain ⟨a, b, rest, h, da, db, ea, eb, er, hr⟩ := E.two
  have room := E.room
  rcases h with rfl | rfl
  · refine ⟨false, a, b, rest, ⟨rfl, da, db, hne, ?_, ?_, ?_⟩, ea, eb, er⟩
    · have := room a (by simp); omega
    · exact room b (by simp)
    · intro d hd; exact ⟨hr d hd, room d (by simp [hd])⟩
  · refine ⟨true, a, b, rest, ⟨rfl, da, db, hne, ?_, ?_, ?_⟩, ea, eb, er⟩
    · have := room a (by simp); omega
    · exact room b (by simp)
    · intro d hd; exact ⟨hr d hd, room d (by simp [hd])⟩

/-- entries of the non horizontal dimensions -/
abbrev restE (rest : List DimSpec) : List Entry :=
  rest.map fun d => .sl (some d.origin) (some (d.origin + d.extent))
abbrev restS (rest : List DimSpec) : List Slice := rest.map fun d => ⟨d.origin, d.origin + d.extent⟩

abbrev edgeE (sw : Bool) (p : Int) (b : DimSpec) (rest : List DimSpec) : List Entry :=
  if sw then .sl (some b.origin) (some (b.origin + b.extent)) :: .int p :: restE rest
  else .int p :: .sl (some b.origin) (some (b.origin + b.extent)) :: restE rest
abbrev edgeS (sw : Bool) (p : Int) (b : DimSpec) (rest : List DimSpec) : List Slice :=
  if sw then ⟨b.origin, b.origin + b.extent⟩ :: ⟨p, p + 1⟩ :: restS rest
  else ⟨p, p + 1⟩ :: ⟨b.origin, b.origin + b.extent⟩ :: restS rest

theorem npEntry_sl {n a b : Int} (h0 : 0 ≤ a) (h1 : a ≤ b) (h2 : b ≤ n) :
    npEntry n (.sl (some a) (some b)) = .ok ⟨a, b⟩ := by
  simp only [npEntry, npBound, Option.getD_some]
  rw [if_neg (by omega), if_neg (by omega)]
  congr 2 <;> omega

theorem npEntry_int {n a : Int} (h0 : 0 ≤ a) (h2 : a < n) :
    npEntry n (.int a) = .ok ⟨a, a + 1⟩ := by
  have e : npInt n a = .ok a := by
    unfold npInt
    have : (if a < 0 then n + a else a) = a := if_neg (by omega)
    simp only [this]
    rw [if_pos (by omega)]
  simp only [npEntry, e]
  rfl

theorem rest_entries {v : BType} {across along : Dim} {i e : Int} (hac : across.isHorizontal = true)
    (hal : along.isHorizontal = true) : ∀ {rest : List DimSpec},
    (∀ d ∈ rest, d.dim.isHorizontal = false ∧ 0 ≤ d.origin ∧ 0 ≤ d.extent ∧
      d.origin + d.extent ≤ d.shape) →
    ((rest.zip (rest.map fun d => if d.dim = across then Entry.int i
      else if d.dim = along then .sl (some 0) (some e) else .sl none none)).map
        fun (d, e) => boundaryEntry (.corner v) d e) = restE rest ∧
    (rest.zip (restE rest)).mapM (fun (d, e) => npEntry d.shape e) = .ok (restS rest) := by
  intro rest
  induction rest with
  | nil => intro _; exact ⟨rfl, rfl⟩
  | cons d rest ih =>
    intro h
    obtain ⟨h1, h2⟩ := ih fun x hx => h x (List.mem_cons_of_mem _ hx)
    obtain ⟨hd, d0, d1, d2⟩ := h d List.mem_cons_self
    have n1 : d.dim ≠ across := by intro e; rw [e, hac] at hd; exact absurd hd (by simp)
    have n2 : d.dim ≠ along := by intro e; rw [e, hal] at hd; exact absurd hd (by simp)
    constructor
    · simp only [List.map_cons, List.zip_cons_cons, h1, if_neg n1, if_neg n2]
      rfl
    · simp only [restE, restS, List.map_cons, List.zip_cons_cons, List.mapM_cons] at *
      rw [npEntry_sl d0 (by omega) d2, h2]
      rfl

theorem fill_self {ds : List DimSpec} {es : List Entry} (h : es.length = ds.length) :
    fillIndex es ds.length = es := by
  unfold fillIndex; simp [h]

section
variable {across along : Dim} {sw : Bool} {a b : DimSpec} {rest ds : List DimSpec}

theorem edgeRegion_eq (N : Named across along sw a b rest ds) (v : BType) (i p : Int)
    (hac : across.isHorizontal = true) (hal : along.isHorizontal = true)
    (hb : (viewOffset (.corner v) b) = (b.origin, b.origin))
    (hp : i + (viewOffset (.corner v) a).1 = p)
    (hr : a.origin ≤ p ∧ p < a.origin + a.extent) :
    edgeRegion (.corner v) across along i ds = .ok (edgeE sw p b rest, edgeS sw p b rest) := by
  obtain ⟨e, da, db, hne, ra, rb, rr⟩ := N
  have n1 : b.dim ≠ across := by rw [db]; exact hne.symm
  have n2 : a.dim ≠ along := by rw [da]; exact hne
  obtain ⟨r1, r2⟩ := rest_entries (v := v) (i := i) (e := b.extent) hac hal rr
  have ea : boundaryEntry (.corner v) a (.int i) = .int p := by
    simp only [boundaryEntry, hp]
  have eb : boundaryEntry (.corner v) b (.sl (some 0) (some b.extent)) =
      .sl (some b.origin) (some (b.origin + b.extent)) := by
    simp only [boundaryEntry, hb, Option.map_some, Option.getD_some]
    congr 2 <;> omega
  have m1 := npEntry_sl rb.1 (show b.origin ≤ b.origin + b.extent by omega) rb.2.2
  have m2 := npEntry_int (n := a.shape) (a := p) (by omega) (by omega)
  have hfind : ((ds.find? fun (e : DimSpec) => decide (e.dim = along)).map DimSpec.extent).getD 0 = b.extent := by
    rw [e]; cases sw <;> simp [da, db, hne]
  unfold edgeRegion boundaryIndex
  have hE : ((ds.zip (fillIndex (edgeEntries across along i ds) ds.length)).map
      fun (d, e) => boundaryEntry (.corner v) d e) = edgeE sw p b rest := by
    rw [fill_self (by unfold edgeEntries; simp)]
    unfold edgeEntries
    simp only [hfind]
    subst e
    cases sw
    · simp only [Bool.false_eq_true, if_false, List.map_cons, List.zip_cons_cons, r1,
        if_neg n1, if_pos da, if_pos db, ea, eb, edgeE]
    · simp only [if_true, List.map_cons, List.zip_cons_cons, r1,
        if_neg n1, if_pos da, if_pos db, ea, eb, edgeE]
  have hS : addressed ds (.ok (edgeE sw p b rest)) = .ok (edgeS sw p b rest) := by
    unfold addressed
    simp only [Except.bind]
    subst e
    cases sw
    · simp only [Bool.false_eq_true, if_false, edgeE, edgeS, List.zip_cons_cons, List.mapM_cons, m1, m2, r2]
      rfl
    · simp only [if_true, edgeE, edgeS, List.zip_cons_cons, List.mapM_cons, m1, m2, r2]
      rfl
  rw [if_neg (by unfold edgeEntries; simp), hE]
  show (do let sl ← addressed ds (.ok (edgeE sw p b rest)); Except.ok (edgeE sw p b rest, sl)) = _
  rw [hS]
  rfl

/-! shape and contents -/

theorem restS_shape : ∀ {rest : List DimSpec}, (∀ d ∈ rest, 0 ≤ d.extent) →
    removeInts (restE rest) (shapeOf (restS rest)) = rest.map DimSpec.extent
  | [], _ => rfl
  | d :: rest, h => by
    have := restS_shape fun x hx => h x (List.mem_cons_of_mem _ hx)
    simp only [restE, restS, List.map_cons, removeInts] at *
    rw [this]
    have := h d List.mem_cons_self
    congr 1; omega

theorem rest_insert : ∀ {rest : List DimSpec} {ks : List Int}, rest.length = ks.length →
    List.zipWith (fun (s : Slice) i => s.start + i) (restS rest) (insertInts (restE rest) ks) =
      List.zipWith (fun d k => d.origin + k) rest ks
  | [], _, _ => by simp [insertInts]
  | d :: rest, k :: ks, h => by
    have := rest_insert (rest := rest) (ks := ks) (by simpa using h)
    simp only [restE, restS, List.map_cons, insertInts, List.zipWith_cons_cons] at *
    rw [this]

theorem rest_remove : ∀ {rest : List DimSpec} {ks : List Int}, rest.length = ks.length →
    removeInts (restE rest) (List.zipWith (fun (s : Slice) i => i - s.start) (restS rest)
      (List.zipWith (fun d k => d.origin + k) rest ks)) = ks
  | [], [], _ => rfl
  | d :: rest, k :: ks, h => by
    have := rest_remove (rest := rest) (ks := ks) (by simpa using h)
    simp only [restE, restS, List.map_cons, removeInts, List.zipWith_cons_cons] at *
    rw [this]
    congr 1; omega

theorem rest_in : ∀ {rest : List DimSpec} {g : List Int}, inSlices (restS rest) g = true ↔
    ∃ ks, InShape (rest.map DimSpec.extent) ks ∧ g = List.zipWith (fun d k => d.origin + k) rest ks
  | [], g => by
    cases g with
    | nil => simp [inSlices]; exact ⟨[], .nil⟩
    | cons x g =>
      simp [inSlices]
  | d :: rest, g => by
    cases g with
    | nil =>
      simp only [restS, List.map_cons, inSlices, Bool.false_eq_true, false_iff]
      rintro ⟨ks, h, e⟩
      cases h; simp at e
    | cons x g =>
      have ih := rest_in (rest := rest) (g := g)
      simp only [restS, List.map_cons, inSlices, Bool.and_eq_true, decide_eq_true_eq] at *
      rw [ih]
      constructor
      · rintro ⟨h, ks, h1, h2⟩
        refine ⟨(x - d.origin) :: ks, .cons (by omega) h1, ?_⟩
        simp only [List.zipWith_cons_cons, ← h2]
        congr 1; omega
      · rintro ⟨ks, h1, h2⟩
        cases h1 with
        | cons h3 h4 =>
          simp only [List.zipWith_cons_cons, List.cons.injEq] at h2
          exact ⟨by omega, _, h4, h2.2⟩

theorem edge_shape (N : Named across along sw a b rest ds) (p : Int) {α : Type} (m : NArr α) :
    (m.index (edgeE sw p b rest) (edgeS sw p b rest)).shape =
      b.extent :: rest.map DimSpec.extent := by
  have r := restS_shape (rest := rest) fun d hd => (N.rr d hd).2.2.1
  have rb := N.rb
  have e : max 0 (b.origin + b.extent - b.origin) = b.extent := by omega
  unfold NArr.index NArr.slice
  simp only [shapeOf] at r
  cases sw
  · simp only [edgeE, edgeS, Bool.false_eq_true, if_false, List.map_cons, removeInts, r, e]
  · simp only [edgeE, edgeS, if_true, List.map_cons, removeInts, r, e]

theorem edge_get (p : Int) {α : Type} (m : NArr α) (y : Int) {ks : List Int}
    (hk : rest.length = ks.length) :
    (m.index (edgeE sw p b rest) (edgeS sw p b rest)).get (y :: ks) =
      m.get (placeAt sw p (b.origin + y) rest ks) := by
  have r := rest_insert hk
  unfold NArr.index NArr.slice placeAt
  cases sw
  · simp only [edgeE, edgeS, Bool.false_eq_true, if_false, insertInts, List.zipWith_cons_cons, r]
    simp
  · simp only [edgeE, edgeS, if_true, insertInts, List.zipWith_cons_cons, r]
    simp

theorem edge_in {p : Int} {g : List Int} : inSlices (edgeS sw p b rest) g = true ↔
    ∃ y ks, InShape (b.extent :: rest.map DimSpec.extent) (y :: ks) ∧
      g = placeAt sw p (b.origin + y) rest ks := by
  unfold placeAt
  cases sw
  · constructor
    · intro h
      match g with
      | [] => simp [edgeS, inSlices] at h
      | [x] => simp [edgeS, inSlices] at h
      | x :: y :: g =>
        simp only [edgeS, Bool.false_eq_true, if_false, inSlices, Bool.and_eq_true,
          decide_eq_true_eq, rest_in] at h
        obtain ⟨h1, h2, ks, h3, rfl⟩ := h
        refine ⟨y - b.origin, ks, .cons (by omega) h3, ?_⟩
        simp only [Bool.false_eq_true, if_false, List.cons_append, List.nil_append]
        congr 1
        · omega
        · congr 1; omega
    · rintro ⟨y, ks, h, rfl⟩
      cases h with
      | cons h1 h2 =>
        simp only [edgeS, Bool.false_eq_true, if_false, List.cons_append, List.nil_append, inSlices,
          Bool.and_eq_true, decide_eq_true_eq, rest_in]
        exact ⟨by omega, by omega, ks, h2, rfl⟩
  · constructor
    · intro h
      match g with
      | [] => simp [edgeS, inSlices] at h
      | [x] => simp [edgeS, inSlices] at h
      | y :: x :: g =>
        simp only [edgeS, if_true, inSlices, Bool.and_eq_true,
          decide_eq_true_eq, rest_in] at h
        obtain ⟨h1, h2, ks, h3, rfl⟩ := h
        refine ⟨y - b.origin, ks, .cons (by omega) h3, ?_⟩
        simp only [if_true, List.cons_append, List.nil_append]
        congr 1
        · omega
        · congr 1; omega
    · rintro ⟨y, ks, h, rfl⟩
      cases h with
      | cons h1 h2 =>
        simp only [edgeS, if_true, List.cons_append, List.nil_append, inSlices,
          Bool.and_eq_true, decide_eq_true_eq, rest_in]
        exact ⟨by omega, by omega, ks, h2, rfl⟩

theorem edge_assign (p : Int) {α : Type} (m v : NArr α) {y : Int} {ks : List Int}
    (h : InShape (b.extent :: rest.map DimSpec.extent) (y :: ks)) :
    (m.assignIndex (edgeE sw p b rest) (edgeS sw p b rest) v).get
      (placeAt sw p (b.origin + y) rest ks) = v.get (y :: ks) := by
  have hk : rest.length = ks.length := by
    have := h.length_eq; simpa using this
  have r := rest_remove hk
  unfold NArr.assignIndex NArr.assign
  simp only
  rw [if_pos (edge_in.2 ⟨y, ks, h, rfl⟩)]
  congr 1
  unfold placeAt
  cases sw
  · simp only [edgeE, edgeS, Bool.false_eq_true, if_false, List.cons_append, List.nil_append,
      List.zipWith_cons_cons, removeInts, r]
    congr 1; omega
  · simp only [edgeE, edgeS, if_true, List.cons_append, List.nil_append,
      List.zipWith_cons_cons, removeInts, r]
    congr 1; omega

theorem edge_assign_out (p : Int) {α : Type} (m v : NArr α) {g : List Int}
    (h : ¬ ∃ y ks, InShape (b.extent :: rest.map DimSpec.extent) (y :: ks) ∧
      g = placeAt sw p (b.origin + y) rest ks) :
    (m.assignIndex (edgeE sw p b rest) (edgeS sw p b rest) v).get g = m.get g := by
  unfold NArr.assignIndex NArr.assign
  simp only
  rw [if_neg]
  rw [edge_in]; exact h

end

/-! coordinates -/
section
variable {across along : Dim} {sw : Bool} {a b : DimSpec} {rest ds : List DimSpec}

theorem rest_levels : ∀ {rest : List DimSpec} {ks : List Int}, rest.length = ks.length →
    (∀ d ∈ rest, d.dim.isHorizontal = false) →
    levels rest (List.zipWith (fun d k => d.origin + k) rest ks) = ks
  | [], [], _, _ => rfl
  | d :: rest, k :: ks, h, hr => by
    have := rest_levels (rest := rest) (ks := ks) (by simpa using h)
      fun x hx => hr x (List.mem_cons_of_mem _ hx)
    unfold levels at *
    simp only [List.zipWith_cons_cons, List.zip_cons_cons]
    rw [List.filter_cons_of_pos (by simp [hr d List.mem_cons_self]), List.map_cons, this]
    congr 1; simp only; omega

theorem place_levels (N : Named across along sw a b rest ds) (hac : across.isHorizontal = true)
    (hal : along.isHorizontal = true) {x y : Int} {ks : List Int} (h : rest.length = ks.length) :
    levels ds (placeAt sw x y rest ks) = ks := by
  have r := rest_levels h fun d hd => (N.rr d hd).1
  have e := N.eq
  unfold levels placeAt at *
  cases sw <;> simp only [Bool.false_eq_true, if_false, if_true] at e ⊢ <;> subst e <;>
    simp only [List.cons_append, List.nil_append, List.zip_cons_cons] <;>
    rw [List.filter_cons_of_neg (by simp [N.da, N.db, hac, hal]),
      List.filter_cons_of_neg (by simp [N.da, N.db, hac, hal])] <;> exact r

theorem place_coord_x (N : Named .jInterface .i sw a b rest ds) (L lo x y : Int) (ks : List Int) :
    coordI L lo ds (placeAt sw x y rest ks) = 2 * (lo + (y - b.origin)) + 1 - L ∧
    coordJ L lo ds (placeAt sw x y rest ks) = 2 * (lo + (x - a.origin)) - L := by
  have e := N.eq
  have ia : a.dim.isI = false := by rw [N.da]; rfl
  have ja : a.dim.isJ = true := by rw [N.da]; rfl
  have ib : b.dim.isI = true := by rw [N.db]; rfl
  have jb : b.dim.isJ = false := by rw [N.db]; rfl
  have sa : a.stag = 1 := by unfold DimSpec.stag; rw [N.da]; rfl
  have sb : b.stag = 0 := by unfold DimSpec.stag; rw [N.db]; rfl
  unfold coordI coordJ placeAt
  cases sw <;> simp only [Bool.false_eq_true, if_false, if_true] at e ⊢ <;> subst e <;>
    simp [ia, ja, ib, jb, sa, sb]

theorem place_coord_y (N : Named .iInterface .j sw a b rest ds) (L lo x y : Int) (ks : List Int) :
    coordI L lo ds (placeAt sw x y rest ks) = 2 * (lo + (x - a.origin)) - L ∧
    coordJ L lo ds (placeAt sw x y rest ks) = 2 * (lo + (y - b.origin)) + 1 - L := by
  have e := N.eq
  have ia : a.dim.isI = true := by rw [N.da]; rfl
  have ja : a.dim.isJ = false := by rw [N.da]; rfl
  have ib : b.dim.isI = false := by rw [N.db]; rfl
  have jb : b.dim.isJ = true := by rw [N.db]; rfl
  have sa : a.stag = 1 := by unfold DimSpec.stag; rw [N.da]; rfl
  have sb : b.stag = 0 := by unfold DimSpec.stag; rw [N.db]; rfl
  unfold coordI coordJ placeAt
  cases sw <;> simp only [Bool.false_eq_true, if_false, if_true] at e ⊢ <;> subst e <;>
    simp [ia, ja, ib, jb, sa, sb]

theorem rest_compute : ∀ {rest : List DimSpec} {g : List Int}, InCompute rest g ↔
    ∃ ks, InShape (rest.map DimSpec.extent) ks ∧ g = List.zipWith (fun d k => d.origin + k) rest ks
  | [], g => by
    constructor
    · intro h; cases h; exact ⟨[], .nil, rfl⟩
    · rintro ⟨ks, h, rfl⟩; exact .nil
  | d :: rest, g => by
    constructor
    · intro h
      cases h with
      | @cons _ x _ g h1 h2 =>
        obtain ⟨ks, h3, rfl⟩ := rest_compute.1 h2
        refine ⟨(x - d.origin) :: ks, .cons (by omega) h3, ?_⟩
        simp only [List.zipWith_cons_cons]
        congr 1; omega
    · rintro ⟨ks, h, rfl⟩
      cases h with
      | cons h1 h2 =>
        exact .cons (by simp only; omega) (rest_compute.2 ⟨_, h2, rfl⟩)

/-- points of the compute domain -/
theorem place_compute (N : Named across along sw a b rest ds) {g : List Int} : InCompute ds g ↔
    ∃ x y ks, (a.origin ≤ x ∧ x < a.origin + a.extent) ∧
      InShape (b.extent :: rest.map DimSpec.extent) (y :: ks) ∧
      g = placeAt sw x (b.origin + y) rest ks := by
  have e := N.eq
  unfold placeAt
  cases sw <;> simp only [Bool.false_eq_true, if_false, if_true] at e ⊢ <;> subst e
  · constructor
    · intro h
      cases h with
      | @cons _ x _ g h1 h2 =>
      cases h2 with
      | @cons _ y _ g h2 h3 =>
        obtain ⟨ks, h4, rfl⟩ := rest_compute.1 h3
        refine ⟨x, y - b.origin, ks, h1, .cons (by omega) h4, ?_⟩
        simp only [List.cons_append, List.nil_append]
        congr 2; omega
    · rintro ⟨x, y, ks, h1, h2, rfl⟩
      cases h2 with
      | cons h3 h4 =>
        exact .cons h1 (.cons (by omega) (rest_compute.2 ⟨_, h4, rfl⟩))
  · constructor
    · intro h
      cases h with
      | @cons _ y _ g h2 h2' =>
      cases h2' with
      | @cons _ x _ g h1 h3 =>
        obtain ⟨ks, h4, rfl⟩ := rest_compute.1 h3
        refine ⟨x, y - b.origin, ks, h1, .cons (by omega) h4, ?_⟩
        simp only [List.cons_append, List.nil_append]
        congr 1; omega
    · rintro ⟨x, y, ks, h1, h2, rfl⟩
      cases h2 with
      | cons h3 h4 =>
        exact .cons (by omega) (.cons h1 (rest_compute.2 ⟨_, h4, rfl⟩))

theorem place_inj {x x' y y' : Int} {ks ks' : List Int} 
    (h : placeAt sw x y rest ks = placeAt sw x' y' rest ks') : x = x' ∧ y = y' := by
  unfold placeAt at h
  cases sw <;> simp at h <;> omega

theorem place_last (N : Named across along sw a b rest ds) (hac : across.isHorizontal = true)
    {x y : Int} {ks : List Int} :
    OnLast across ds (placeAt sw x y rest ks) ↔ x = a.origin + a.extent - 1 := by
  have e := N.eq
  have n1 : b.dim ≠ across := by rw [N.db]; exact N.ne.symm
  have hr : ∀ p ∈ rest.zip (List.zipWith (fun d k => d.origin + k) rest ks), p.1.dim ≠ across := by
    intro p hp e
    have := (N.rr _ (List.of_mem_zip hp).1).1
    rw [e, hac] at this
    exact absurd this (by simp)
  unfold OnLast placeAt
  cases sw <;> simp only [Bool.false_eq_true, if_false, if_true] at e ⊢ <;> subst e <;>
    simp only [List.cons_append, List.nil_append, List.zip_cons_cons, List.mem_cons]
  · constructor
    · rintro ⟨p, (rfl | rfl | hp), h1, h2⟩
      · exact h2
      · exact absurd h1 n1
      · exact absurd h1 (hr p hp)
    · intro h; exact ⟨_, .inl rfl, N.da, h⟩
  · constructor
    · rintro ⟨p, (rfl | rfl | hp), h1, h2⟩
      · exact absurd h1 n1
      · exact h2
      · exact absurd h1 (hr p hp)
    · intro h; exact ⟨_, .inr (.inl rfl), N.da, h⟩

end

/-! sending and receiving an edge -/
section
variable {α : Type} [Inhabited α] [Neg α]
variable {across along : Dim} {sw : Bool} {a b : DimSpec} {rest : List DimSpec} {q : Qty α}

/-- contents of a message: the first line of the field, possibly reversed and negated -/
structure EdgeMsg (sw : Bool) (a b : DimSpec) (rest : List DimSpec) (q : Qty α) (rev neg : Bool)
    (m : NArr α) : Prop where
  shape : m.shape = b.extent :: rest.map DimSpec.extent
  get : ∀ y ks, rest.length = ks.length → m.get (y :: ks) = (if neg then (fun a => - a) else id)
    (q.data.get (placeAt sw a.origin (b.origin + if rev then b.extent - 1 - y else y) rest ks))

theorem flip_get {α : Type} (m : NArr α) {n y : Int} {s ks : List Int} (h : m.shape = n :: s) :
    (m.flip 0).get (y :: ks) = m.get ((n - 1 - y) :: ks) := by
  unfold NArr.flip
  simp only [h, List.set_cons_zero, ent, List.getD_cons_zero]

theorem southData_ok (N : Named .jInterface .i sw a b rest q.ds) (rot : Int) (hr : rot = 0 ∨ rot = 3) :
    ∃ m, southData q rot = .ok m ∧ EdgeMsg sw a b rest q (rot = 3) (rot = 3) m := by
  have E := edgeRegion_eq N .southwest 0 a.origin rfl rfl
    (by unfold viewOffset atStart; rw [N.db]; rfl)
    (by unfold viewOffset atStart; rw [N.da]; simp [Dim.isJ]) (by have := N.ra; omega)
  have sh := edge_shape N a.origin q.data
  unfold southData
  rw [E]
  simp only [bind, Except.bind, pure, Except.pure]
  refine ⟨_, rfl, ?_, ?_⟩
  · rcases hr with rfl | rfl
    · exact sh
    · exact sh
  · intro y ks hk
    rcases hr with rfl | rfl
    · exact edge_get a.origin q.data y hk
    · show - ((q.data.index _ _).flip 0).get (y :: ks) = _
      rw [flip_get _ sh, edge_get a.origin q.data _ hk]
      rfl

theorem westData_ok (N : Named .iInterface .j sw a b rest q.ds) (rot : Int) (hr : rot = 0 ∨ rot = 1) :
    ∃ m, westData q rot = .ok m ∧ EdgeMsg sw a b rest q (rot = 1) (rot = 1) m := by
  have E := edgeRegion_eq N .southwest 0 a.origin rfl rfl
    (by unfold viewOffset atStart; rw [N.db]; rfl)
    (by unfold viewOffset atStart; rw [N.da]; simp [Dim.isJ, Dim.isI]) (by have := N.ra; omega)
  have sh := edge_shape N a.origin q.data
  unfold westData
  rw [E]
  simp only [bind, Except.bind, pure, Except.pure]
  refine ⟨_, rfl, ?_, ?_⟩
  · rcases hr with rfl | rfl
    · exact sh
    · exact sh
  · intro y ks hk
    rcases hr with rfl | rfl
    · exact edge_get a.origin q.data y hk
    · show - ((q.data.index _ _).flip 0).get (y :: ks) = _
      rw [flip_get _ sh, edge_get a.origin q.data _ hk]
      rfl

/-- what receiving a message does to a field -/
structure EdgeGot (sw : Bool) (a b : DimSpec) (rest : List DimSpec) (q : Qty α) (m : NArr α)
    (q' : Qty α) : Prop where
  ds : q'.ds = q.ds
  shape : q'.data.shape = q.data.shape
  on : ∀ y ks, InShape (b.extent :: rest.map DimSpec.extent) (y :: ks) →
    q'.data.get (placeAt sw (a.origin + a.extent - 1) (b.origin + y) rest ks) = m.get (y :: ks)
  off : ∀ g, (¬ ∃ y ks, InShape (b.extent :: rest.map DimSpec.extent) (y :: ks) ∧
    g = placeAt sw (a.origin + a.extent - 1) (b.origin + y) rest ks) → q'.data.get g = q.data.get g

theorem edgeRecv_ok (N : Named across along sw a b rest q.ds) (junk : Nat → α) (v : BType)
    (hac : across.isHorizontal = true) (hal : along.isHorizontal = true)
    (hb : (viewOffset (.corner v) b) = (b.origin, b.origin))
    (hp : (viewOffset (.corner v) a).1 = a.origin + a.extent) (m : NArr α)
    (hm : m.shape = b.extent :: rest.map DimSpec.extent) :
    ∃ q', edgeRecv junk q v across along m.flatten = .ok q' ∧ EdgeGot sw a b rest q m q' := by
  have E := edgeRegion_eq N v (-1) (a.origin + a.extent - 1) hac hal hb (by omega)
    (by have := N.ra; omega)
  have sh := edge_shape N (a.origin + a.extent - 1) q.data
  have nn : NonNeg m.shape := by
    rw [hm]
    intro n hn
    rcases List.mem_cons.1 hn with rfl | hn
    · exact N.rb.2.1
    · obtain ⟨d, hd, rfl⟩ := List.mem_map.1 hn
      exact (N.rr d hd).2.2.1
  obtain ⟨w, hw, hs⟩ := reshape_flatten nn
  have hl := flatten_length nn
  unfold edgeRecv
  rw [E]
  simp only [bind, Except.bind, pure, Except.pure]
  rw [sh]
  have hr : recvInto junk (size (b.extent :: rest.map DimSpec.extent)).toNat m.flatten = .ok m.flatten := by
    unfold recvInto
    rw [← hm, ← hl, if_neg (by omega)]
    rw [List.drop_eq_nil_of_le (by simp [junkBuf]), List.append_nil]
  rw [hr]
  simp only
  rw [← hm, hw]
  refine ⟨_, rfl, rfl, rfl, ?_, ?_⟩
  · intro y ks hy
    simp only
    rw [edge_assign _ _ _ hy]
    apply hs.2
    rw [hs.1, hm]; exact hy
  · intro g hg
    simp only
    rw [edge_assign_out _ _ _ hg]

end

end NDSL
