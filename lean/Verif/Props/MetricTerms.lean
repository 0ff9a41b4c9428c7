import Verif.Spec.MetricTerms
import Mathlib.Data.List.Nodup
/-
C93: the terms of the grid do not depend on the order in which they are read.
-/
namespace NDSL.Metric

/-! ### Groups of attributes that are computed together -/

inductive G where
  | grid | agrid | xyzD | xyzA | dxdy | dxdyA | dxdyC | area | areaC | center | west | south | xy | l2c
  | trig | lonlat | divg | z | a | edge | vect | vect2 | minmax
  | rarea | rareaC | rdx | rdy | rdxa | rdya | rdxc | rdyc
  deriving DecidableEq, Repr

def groupOf : Attr → G
  | .grid => .grid
  | .agrid => .agrid
  | .dgridXyz => .xyzD
  | .agridXyz => .xyzA
  | .dx | .dy | .dx64 | .dy64 => .dxdy
  | .dxAgrid | .dyAgrid => .dxdyA
  | .dxCenter | .dyCenter | .dxc64 | .dyc64 => .dxdyC
  | .area | .area64 => .area
  | .areaC => .areaC
  | .ec1 | .ec2 | .ec164 | .ec264 => .center
  | .ew1 | .ew2 => .west
  | .es1 | .es2 => .south
  | .ee1 | .ee2 => .xy
  | .l2cV | .l2cU => .l2c
  | .cosSg _ | .sinSg _ | .cosa | .sina | .cosaU | .cosaV | .cosaS | .sinaU | .sinaV | .rsinU | .rsinV
  | .rsina | .rsin2 | .sinaU64 | .sinaV64 | .sinSg564 => .trig
  | .del6U | .del6V | .divgU | .divgV => .divg
  | .vlon | .vlat | .vlon64 | .vlat64 => .lonlat
  | .z11 | .z12 | .z21 | .z22 | .z1164 | .z1264 | .z2164 | .z2264 => .z
  | .a11 | .a12 | .a21 | .a22 => .a
  | .edgeW | .edgeE | .edgeS | .edgeN => .edge
  | .vectW | .vectE | .vectS | .vectN => .vect
  | .vectW2 | .vectE2 => .vect2
  | .daMin | .daMax | .daMinC | .daMaxC => .minmax
  | .rarea => .rarea
  | .rareaC => .rareaC
  | .rdx => .rdx
  | .rdy => .rdy
  | .rdxa => .rdxa
  | .rdya => .rdya
  | .rdxc => .rdxc
  | .rdyc => .rdyc

def attrVal (cart : Bool) : Attr → V
  | .grid => value cart .grid
  | .agrid => value cart .agrid
  | .dgridXyz => cornersXyz
  | .agridXyz => centersXyz
  | .dx => value cart .dx
  | .dy => value cart .dy
  | .dx64 => sides cart 0
  | .dy64 => sides cart 1
  | .dxAgrid => value cart .dxa
  | .dyAgrid => value cart .dya
  | .dxCenter => value cart .dxc
  | .dyCenter => value cart .dyc
  | .dxc64 => gaps cart 0
  | .dyc64 => gaps cart 1
  | .area => value cart .area
  | .area64 => value cart .area64
  | .areaC => value cart .areaC
  | .ec1 => value cart .ec1
  | .ec2 => value cart .ec2
  | .ec164 => centre cart 0
  | .ec264 => centre cart 1
  | .ew1 => value cart .ew1
  | .ew2 => value cart .ew2
  | .es1 => value cart .es1
  | .es2 => value cart .es2
  | .ee1 => value cart .ee1
  | .ee2 => value cart .ee2
  | .l2cV => value cart .l2cV
  | .l2cU => value cart .l2cU
  | .cosSg i => value cart (.cosSg i)
  | .sinSg i => value cart (.sinSg i)
  | .cosa => value cart .cosa
  | .sina => value cart .sina
  | .cosaU => value cart .cosaU
  | .cosaV => value cart .cosaV
  | .cosaS => value cart .cosaS
  | .sinaU => value cart .sinaU
  | .sinaV => value cart .sinaV
  | .rsinU => value cart .rsinU
  | .rsinV => value cart .rsinV
  | .rsina => value cart .rsina
  | .rsin2 => value cart .rsin2
  | .sinaU64 => derived cart .one 5
  | .sinaV64 => derived cart .one 6
  | .sinSg564 => sinAt cart 4
  | .del6U => value cart .del6U
  | .del6V => value cart .del6V
  | .divgU => value cart .divgU
  | .divgV => value cart .divgV
  | .vlon => value cart .vlon
  | .vlat => value cart .vlat
  | .vlon64 => eastNorth cart 0
  | .vlat64 => eastNorth cart 1
  | .z11 => value cart .z11
  | .z12 => value cart .z12
  | .z21 => value cart .z21
  | .z22 => value cart .z22
  | .z1164 => .app .dot [centre cart 0, eastNorth cart 0]
  | .z1264 => .app .dot [centre cart 0, eastNorth cart 1]
  | .z2164 => .app .dot [centre cart 1, eastNorth cart 0]
  | .z2264 => .app .dot [centre cart 1, eastNorth cart 1]
  | .a11 => value cart .a11
  | .a12 => value cart .a12
  | .a21 => value cart .a21
  | .a22 => value cart .a22
  | .edgeW => value cart .edgeW
  | .edgeE => value cart .edgeE
  | .edgeS => value cart .edgeS
  | .edgeN => value cart .edgeN
  | .vectW => value cart .edgeVectW1d
  | .vectE => value cart .edgeVectE1d
  | .vectS => value cart .edgeVectS
  | .vectN => value cart .edgeVectN
  | .vectW2 => value cart .edgeVectW
  | .vectE2 => value cart .edgeVectE
  | .daMin => value cart .daMin
  | .daMax => value cart .daMax
  | .daMinC => value cart .daMinC
  | .daMaxC => value cart .daMaxC
  | .rarea => value cart .rarea
  | .rareaC => value cart .rareaC
  | .rdx => value cart .rdx
  | .rdy => value cart .rdy
  | .rdxa => value cart .rdxa
  | .rdya => value cart .rdya
  | .rdxc => value cart .rdxc
  | .rdyc => value cart .rdyc

/-- The attributes of a group in the order in which they are set. -/
def attrsOf : G → List Attr
  | .grid => [.grid]
  | .agrid => [.agrid]
  | .xyzD => [.dgridXyz]
  | .xyzA => [.agridXyz]
  | .dxdy => [.dx64, .dy64, .dx, .dy]
  | .dxdyA => [.dxAgrid, .dyAgrid]
  | .dxdyC => [.dxc64, .dyc64, .dxCenter, .dyCenter]
  | .area => [.area, .area64]
  | .areaC => [.areaC]
  | .center => [.ec164, .ec264, .ec1, .ec2]
  | .west => [.ew1, .ew2]
  | .south => [.es1, .es2]
  | .xy => [.ee1, .ee2]
  | .l2c => [.l2cV, .l2cU]
  | .trig => (trigSets (fun _ => .zero) (fun _ => .zero) (fun _ => .zero)).map Prod.fst
  | .lonlat => [.vlon64, .vlat64, .vlon, .vlat]
  | .divg => [.del6U, .del6V, .divgU, .divgV]
  | .z => [.z1164, .z1264, .z2164, .z2264, .z11, .z12, .z21, .z22]
  | .a => [.a11, .a12, .a21, .a22]
  | .edge => [.edgeW, .edgeE, .edgeS, .edgeN]
  | .vect => [.vectW, .vectE, .vectS, .vectN]
  | .vect2 => [.vectE2, .vectW2]
  | .minmax => [.daMin, .daMax, .daMinC, .daMaxC]
  | .rarea => [.rarea]
  | .rareaC => [.rareaC]
  | .rdx => [.rdx]
  | .rdy => [.rdy]
  | .rdxa => [.rdxa]
  | .rdya => [.rdya]
  | .rdxc => [.rdxc]
  | .rdyc => [.rdyc]

def events (cart : Bool) : G → List Ev
  | .dxdy => if cart then [] else [.vectorHalo .dx64 .dy64]
  | .dxdyA => if cart then [] else [.vectorHalo .dxAgrid .dyAgrid]
  | .dxdyC => if cart then [] else [.vectorHalo .dxc64 .dyc64]
  | .area => if cart then [] else [.halo .area64]
  | .areaC => if cart then [] else [.halo .areaC]
  | .divg => if cart then [] else [.vectorHalo .divgV .divgU, .vectorHalo .del6V .del6U]
  | .minmax => [.allreduce .daMin, .allreduce .daMax, .allreduce .daMinC, .allreduce .daMaxC]
  | _ => []

/-- What is needed before a group, in the order in which it is computed. -/
def xyzBoth (cart : Bool) : List G := if cart then [] else [.xyzD, .xyzA]
def pCenter (cart : Bool) : List G := if cart then [] else [.xyzD]
def oCenter (cart : Bool) : List G := pCenter cart ++ [.center]
def pTrig (cart : Bool) : List G := if cart then [] else oCenter cart ++ [.xyzD] ++ [.xyzA]
def oTrig (cart : Bool) : List G := pTrig cart ++ [.trig]
def oDxdyC (cart : Bool) : List G := xyzBoth cart ++ [.dxdyC]
def oAreaC (cart : Bool) : List G := xyzBoth cart ++ [.areaC]
def pZ (cart : Bool) : List G := oCenter cart ++ [.lonlat]
def oZ (cart : Bool) : List G := pZ cart ++ [.z]

def before (cart : Bool) : G → List G
  | .dxdyC | .areaC | .west | .south => xyzBoth cart
  | .center | .xy => pCenter cart
  | .trig => pTrig cart
  | .divg => oTrig cart ++ [.dxdy] ++ oDxdyC cart
  | .z => pZ cart
  | .a => oZ cart ++ oTrig cart
  | .edge | .vect => [.grid]
  | .vect2 => [.grid] ++ ([.grid] ++ [.vect])
  | .minmax => [.area] ++ oAreaC cart
  | .rarea => [.area]
  | .rareaC => oAreaC cart
  | .rdx | .rdy => [.dxdy]
  | .rdxa | .rdya => [.dxdyA]
  | .rdxc | .rdyc => oDxdyC cart
  | _ => []

def order (cart : Bool) (g : G) : List G := before cart g ++ [g]

/-! ### States -/

/-- The object when the groups in `D` have been computed in this order. -/
def mk (cart : Bool) (D : List G) : S :=
  ⟨fun a => if groupOf a ∈ D then some (attrVal cart a) else none, D.flatMap (events cart),
    D.flatMap attrsOf⟩

def add (D : List G) (g : G) : List G := if g ∈ D then D else D ++ [g]
def visit (D : List G) (l : List G) : List G := l.foldl add D

theorem visit_append (D l m : List G) : visit D (l ++ m) = visit (visit D l) m := List.foldl_append ..

theorem mem_add (D : List G) (g x : G) : x ∈ add D g ↔ x ∈ D ∨ x = g := by
  unfold add
  split
  · rename_i h
    constructor
    · exact Or.inl
    · rintro (h' | rfl)
      · exact h'
      · exact h
  · simp

theorem mem_visit (l : List G) : ∀ (D : List G) (x : G), x ∈ visit D l ↔ x ∈ D ∨ x ∈ l := by
  induction l with
  | nil => intro D x; simp [visit]
  | cons g l ih =>
    intro D x
    show x ∈ visit (add D g) l ↔ _
    rw [ih, mem_add, List.mem_cons, or_assoc]

theorem visit_done (l : List G) : ∀ (D : List G), (∀ x ∈ l, x ∈ D) → visit D l = D := by
  induction l with
  | nil => intro D _; rfl
  | cons g l ih =>
    intro D h
    show visit (add D g) l = D
    have : add D g = D := if_pos (h g (by simp))
    rw [this]
    exact ih D fun x hx => h x (by simp [hx])

theorem nodup_visit (l : List G) : ∀ (D : List G), D.Nodup → (visit D l).Nodup := by
  induction l with
  | nil => intro D h; exact h
  | cons g l ih =>
    intro D h
    show (visit (add D g) l).Nodup
    apply ih
    unfold add
    split
    · exact h
    · rename_i hg
      refine List.nodup_append.mpr ⟨h, by simp, ?_⟩
      intro a ha b hb e
      simp only [List.mem_singleton] at hb
      exact hg (by rw [← hb, ← e]; exact ha)

theorem filter_visit (p : G → Bool) (l : List G) : ∀ (D : List G),
    (visit D l).filter p = visit (D.filter p) (l.filter p) := by
  induction l with
  | nil => intro D; rfl
  | cons g l ih =>
    intro D
    have h1 : visit D (g :: l) = visit (add D g) l := rfl
    rw [h1, ih]
    by_cases hp : p g = true
    · rw [List.filter_cons_of_pos hp]
      have h2 : visit (D.filter p) (g :: l.filter p) = visit (add (D.filter p) g) (l.filter p) := rfl
      rw [h2]
      congr 1
      unfold add
      by_cases hd : g ∈ D
      · rw [if_pos hd, if_pos (List.mem_filter.mpr ⟨hd, hp⟩)]
      · rw [if_neg hd, if_neg (fun h => hd (List.mem_filter.mp h).1), List.filter_append,
          List.filter_cons_of_pos hp, List.filter_nil]
    · rw [List.filter_cons_of_neg hp]
      congr 1
      unfold add
      by_cases hd : g ∈ D
      · rw [if_pos hd]
      · rw [if_neg hd, List.filter_append, List.filter_cons_of_neg hp, List.filter_nil, List.append_nil]

/-- With a group, everything it needs has been computed. -/
def Closed (cart : Bool) (D : List G) : Prop := ∀ g ∈ D, ∀ x ∈ order cart g, x ∈ D

theorem order_closed (cart : Bool) (g : G) : Closed cart (order cart g) := by
  unfold Closed
  cases cart <;> cases g <;> decide +kernel

theorem closed_visit (cart : Bool) (D l : List G) (hD : Closed cart D) (hl : Closed cart l) :
    Closed cart (visit D l) := by
  intro g hg x hx
  rw [mem_visit] at hg ⊢
  rcases hg with h | h
  · exact Or.inl (hD g h x hx)
  · exact Or.inr (hl g h x hx)

theorem mem_order (cart : Bool) (g : G) : g ∈ order cart g := by simp [order]

theorem not_before (cart : Bool) (g : G) : g ∉ before cart g := by
  cases cart <;> cases g <;> decide +kernel

/-! ### Steps -/

theorem unless_done (cart : Bool) (D : List G) (a : Attr) (run : S → Except Err S)
    (h : groupOf a ∈ D) : (mk cart D).unless a run = .ok (mk cart D) := by
  unfold S.unless mk
  simp only [if_pos h]

theorem unless_new (cart : Bool) (D : List G) (a : Attr) (run : S → Except Err S)
    (h : groupOf a ∉ D) : (mk cart D).unless a run = run (mk cart D) := by
  unfold S.unless mk
  simp only [if_neg h]

theorem get_done (cart : Bool) (D : List G) (a : Attr) (h : groupOf a ∈ D) :
    (mk cart D).get a = .ok (attrVal cart a) := by
  unfold S.get mk
  simp only [if_pos h]

/-- `run` computes the group `g`, and what is missing for it. -/
def RunOk (cart : Bool) (g : G) (run : S → Except Err S) : Prop :=
  ∀ D, Closed cart D → g ∉ D → run (mk cart D) = .ok (mk cart (visit D (order cart g)))

theorem unless_visit (cart : Bool) (g : G) (run : S → Except Err S) (hr : RunOk cart g run)
    (D : List G) (hD : Closed cart D) (a : Attr) (ha : groupOf a = g) :
    (mk cart D).unless a run = .ok (mk cart (visit D (order cart g))) := by
  by_cases h : g ∈ D
  · rw [unless_done cart D a run (ha ▸ h), visit_done _ _ (hD g h)]
  · rw [unless_new cart D a run (ha ▸ h), hr D hD h]

theorem set_attr (l : List (Attr × V)) : ∀ (s : S) (b : Attr),
    (∀ x ∈ l, x.1 = b → ∀ y ∈ l, y.1 = b → x.2 = y.2) →
    (∀ v, (b, v) ∈ l → (s.set l).attr b = some v) ∧ ((∀ v, (b, v) ∉ l) → (s.set l).attr b = s.attr b) := by
  induction l with
  | nil => intro s b _; exact ⟨fun v h => (by cases h), fun _ => rfl⟩
  | cons x l ih =>
    intro s b hu
    obtain ⟨a, v⟩ := x
    have hi := ih ⟨fun c => if c = a then some v else s.attr c, s.log, s.sets ++ [a]⟩ b
      (fun x hx e y hy e' => hu x (by simp [hx]) e y (by simp [hy]) e')
    show (∀ w, (b, w) ∈ (a, v) :: l → (S.set _ l).attr b = some w) ∧ (_ → (S.set _ l).attr b = s.attr b)
    constructor
    · intro w hw
      by_cases hl : ∃ w', (b, w') ∈ l
      · obtain ⟨w', hw'⟩ := hl
        rw [hi.1 w' hw']
        congr 1
        exact hu (b, w') (by simp [hw']) rfl (b, w) hw rfl
      · rw [hi.2 (fun w' h => hl ⟨w', h⟩)]
        rcases List.mem_cons.mp hw with e | e
        · injection e with e1 e2
          subst e1; subst e2
          exact if_pos rfl
        · exact absurd ⟨w, e⟩ hl
    · intro hn
      rw [hi.2 (fun w h => hn w (by simp [h]))]
      have : b ≠ a := fun e => hn v (by simp [e])
      exact if_neg this

theorem set_log (l : List (Attr × V)) : ∀ (s : S), (s.set l).log = s.log := by
  induction l with
  | nil => intro s; rfl
  | cons x l ih => intro s; exact ih _

theorem set_sets (l : List (Attr × V)) : ∀ (s : S), (s.set l).sets = s.sets ++ l.map Prod.fst := by
  induction l with
  | nil => intro s; simp [S.set]
  | cons x l ih =>
    intro s
    obtain ⟨a, v⟩ := x
    show (S.set _ l).sets = _
    rw [ih]
    simp

theorem set_say (s : S) (l : List (Attr × V)) (e : List Ev) : (s.set l).say e = (s.say e).set l := by
  induction l generalizing s with
  | nil => rfl
  | cons x l ih => obtain ⟨a, v⟩ := x; exact ih _

theorem set_set (s : S) (l m : List (Attr × V)) : (s.set l).set m = s.set (l ++ m) := by
  induction l generalizing s with
  | nil => rfl
  | cons x l ih => obtain ⟨a, v⟩ := x; exact ih _

theorem say_say (s : S) (e f : List Ev) : (s.say e).say f = s.say (e ++ f) := by
  simp [S.say, List.append_assoc]

theorem mem_attrsOf (b : Attr) : b ∈ attrsOf (groupOf b) := by
  cases b
  case cosSg i => revert i; decide +kernel
  case sinSg i => revert i; decide +kernel
  all_goals decide +kernel

theorem groupOf_attrsOf (g : G) : ∀ b ∈ attrsOf g, groupOf b = g := by
  cases g <;> decide +kernel

theorem finish (cart : Bool) (D : List G) (g : G) (l : List (Attr × V)) (hg : g ∉ D)
    (hk : l.map Prod.fst = attrsOf g) (hv : ∀ x ∈ l, x.2 = attrVal cart x.1) :
    ((mk cart D).say (events cart g)).set l = mk cart (visit D [g]) := by
  have hvis : visit D [g] = D ++ [g] := if_neg hg
  have hu : ∀ b, ∀ x ∈ l, x.1 = b → ∀ y ∈ l, y.1 = b → x.2 = y.2 := by
    intro b x hx e y hy e'
    rw [hv x hx, hv y hy, e, e']
  rw [hvis]
  have h1 : ((mk cart D).say (events cart g) |>.set l).attr = (mk cart (D ++ [g])).attr := by
    funext b
    have hs := set_attr l ((mk cart D).say (events cart g)) b (hu b)
    by_cases hb : groupOf b = g
    · have hm : b ∈ l.map Prod.fst := by rw [hk, ← hb]; exact mem_attrsOf b
      obtain ⟨x, hx, rfl⟩ := List.mem_map.mp hm
      rw [hs.1 x.2 hx, hv x hx]
      have : groupOf x.1 ∈ D ++ [g] := by simp [hb]
      exact (if_pos this).symm
    · have hn : ∀ v, (b, v) ∉ l := by
        intro v hm
        have : b ∈ attrsOf g := by rw [← hk]; exact List.mem_map.mpr ⟨_, hm, rfl⟩
        exact hb (groupOf_attrsOf g b this)
      rw [hs.2 hn]
      show (if groupOf b ∈ D then _ else _) = (if groupOf b ∈ D ++ [g] then _ else _)
      have : (groupOf b ∈ D ++ [g]) ↔ groupOf b ∈ D := by simp [hb]
      simp only [this]
  have h2 : ((mk cart D).say (events cart g) |>.set l).log = (mk cart (D ++ [g])).log := by
    rw [set_log]
    show D.flatMap (events cart) ++ events cart g = (D ++ [g]).flatMap (events cart)
    simp
  have h3 : ((mk cart D).say (events cart g) |>.set l).sets = (mk cart (D ++ [g])).sets := by
    rw [set_sets, hk]
    show D.flatMap attrsOf ++ attrsOf g = (D ++ [g]).flatMap attrsOf
    simp
  cases hA : ((mk cart D).say (events cart g)).set l
  cases hB : mk cart (D ++ [g])
  rw [hA, hB] at h1 h2 h3
  simp only at h1 h2 h3
  rw [h1, h2, h3]

/-- As `finish`, for groups without communication. -/
theorem finish' (cart : Bool) (D : List G) (g : G) (l : List (Attr × V)) (hg : g ∉ D)
    (he : events cart g = []) (hk : l.map Prod.fst = attrsOf g)
    (hv : ∀ x ∈ l, x.2 = attrVal cart x.1) :
    (mk cart D).set l = mk cart (visit D [g]) := by
  rw [← finish cart D g l hg hk hv, he]
  have : (mk cart D).say [] = mk cart D := by simp [S.say]
  rw [this]

/-- The groups needed are there when the group itself is computed. -/
theorem notMem_visit (cart : Bool) (D : List G) (g : G) (h : g ∉ D) : g ∉ visit D (before cart g) := by
  rw [mem_visit]
  rintro (h' | h')
  · exact h h'
  · exact not_before cart g h'

/-! ### The computations -/

local macro "vals" : tactic =>
  `(tactic| (repeat (first | exact List.forall_mem_nil _ | refine List.forall_mem_cons.mpr ⟨rfl, ?_⟩)))

theorem ok_xyzD (cart : Bool) : RunOk cart .xyzD runXyzD := by
  intro D _ hg
  exact congrArg Except.ok (finish' cart D .xyzD _ hg rfl rfl (by vals))

theorem ok_xyzA (cart : Bool) : RunOk cart .xyzA runXyzA := by
  intro D _ hg
  exact congrArg Except.ok (finish' cart D .xyzA _ hg rfl rfl (by vals))

theorem ok_grid (cart : Bool) : RunOk cart .grid runGrid := by
  intro D _ hg
  exact congrArg Except.ok (finish' cart D .grid _ hg rfl rfl (by vals))

theorem ok_agrid (cart : Bool) : RunOk cart .agrid runAgrid := by
  intro D _ hg
  exact congrArg Except.ok (finish' cart D .agrid _ hg rfl rfl (by vals))

theorem ok_dxdy (cart : Bool) : RunOk cart .dxdy (runDxdy cart) := by
  intro D _ hg
  cases cart
  · exact congrArg Except.ok (finish false D .dxdy _ hg rfl (by vals))
  · exact congrArg Except.ok (finish' true D .dxdy _ hg rfl rfl (by vals))

theorem ok_dxdyA (cart : Bool) : RunOk cart .dxdyA (runDxdyA cart) := by
  intro D _ hg
  cases cart
  · exact congrArg Except.ok (finish false D .dxdyA _ hg rfl (by vals))
  · exact congrArg Except.ok (finish' true D .dxdyA _ hg rfl rfl (by vals))

theorem ok_area (cart : Bool) : RunOk cart .area (runArea cart) := by
  intro D _ hg
  cases cart
  · exact congrArg Except.ok (finish false D .area _ hg rfl (by vals))
  · exact congrArg Except.ok (finish' true D .area _ hg rfl rfl (by vals))

theorem ok_l2c (cart : Bool) : RunOk cart .l2c (runL2c cart) := by
  intro D _ hg
  cases cart
  · exact congrArg Except.ok (finish' false D .l2c _ hg rfl rfl (by vals))
  · exact congrArg Except.ok (finish' true D .l2c _ hg rfl rfl (by vals))

theorem ok_lonlat (cart : Bool) : RunOk cart .lonlat (runLonLat cart) := by
  intro D _ hg
  cases cart
  · exact congrArg Except.ok (finish' false D .lonlat _ hg rfl rfl (by vals))
  · exact congrArg Except.ok (finish' true D .lonlat _ hg rfl rfl (by vals))

theorem bind_ok {α β : Type} (a : α) (f : α → Except Err β) : (Except.ok a >>= f) = f a := rfl

/-- The two coordinate arrays are there after they have been asked for. -/
theorem both_xyz {β : Type} (D : List G) (hD : Closed false D) (f : S → Except Err β) :
    ((mk false D).unless .dgridXyz runXyzD >>= fun s => s.unless .agridXyz runXyzA >>= f) =
      f (mk false (visit D (xyzBoth false))) := by
  rw [unless_visit false .xyzD _ (ok_xyzD false) D hD .dgridXyz rfl, bind_ok,
    unless_visit false .xyzA _ (ok_xyzA false) _ (closed_visit _ _ _ hD (order_closed _ _)) .agridXyz rfl,
    bind_ok, ← visit_append]
  rfl

theorem mem_both_d (D : List G) : G.xyzD ∈ visit D (xyzBoth false) := by
  rw [mem_visit]; right; decide

theorem mem_both_a (D : List G) : G.xyzA ∈ visit D (xyzBoth false) := by
  rw [mem_visit]; right; decide

theorem ok_dxdyC (cart : Bool) : RunOk cart .dxdyC (runDxdyC cart) := by
  intro D hD hg
  cases cart
  · have hg' := notMem_visit false D .dxdyC hg
    rw [order, visit_append, runDxdyC, if_neg Bool.false_ne_true, both_xyz D hD,
      get_done false _ .dgridXyz (mem_both_d D), bind_ok, get_done false _ .agridXyz (mem_both_a D), bind_ok]
    exact congrArg Except.ok (finish false _ .dxdyC _ hg' rfl (by vals))
  · exact congrArg Except.ok (finish' true D .dxdyC _ hg rfl rfl (by vals))

theorem ok_areaC (cart : Bool) : RunOk cart .areaC (runAreaC cart) := by
  intro D hD hg
  cases cart
  · have hg' := notMem_visit false D .areaC hg
    rw [order, visit_append, runAreaC, if_neg Bool.false_ne_true, both_xyz D hD,
      get_done false _ .dgridXyz (mem_both_d D), bind_ok, get_done false _ .agridXyz (mem_both_a D), bind_ok]
    exact congrArg Except.ok (finish false _ .areaC _ hg' rfl (by vals))
  · exact congrArg Except.ok (finish' true D .areaC _ hg rfl rfl (by vals))

theorem ok_west (cart : Bool) : RunOk cart .west (runWest cart) := by
  intro D hD hg
  cases cart
  · have hg' := notMem_visit false D .west hg
    rw [order, visit_append, runWest, if_neg Bool.false_ne_true, both_xyz D hD,
      get_done false _ .dgridXyz (mem_both_d D), bind_ok, get_done false _ .agridXyz (mem_both_a D), bind_ok]
    exact congrArg Except.ok (finish' false _ .west _ hg' rfl rfl (by vals))
  · exact congrArg Except.ok (finish' true D .west _ hg rfl rfl (by vals))

theorem ok_south (cart : Bool) : RunOk cart .south (runSouth cart) := by
  intro D hD hg
  cases cart
  · have hg' := notMem_visit false D .south hg
    rw [order, visit_append, runSouth, if_neg Bool.false_ne_true, both_xyz D hD,
      get_done false _ .dgridXyz (mem_both_d D), bind_ok, get_done false _ .agridXyz (mem_both_a D), bind_ok]
    exact congrArg Except.ok (finish' false _ .south _ hg' rfl rfl (by vals))
  · exact congrArg Except.ok (finish' true D .south _ hg rfl rfl (by vals))

theorem ok_center (cart : Bool) : RunOk cart .center (runCenter cart) := by
  intro D hD hg
  cases cart
  · have hg' := notMem_visit false D .center hg
    rw [order, visit_append, runCenter, if_neg Bool.false_ne_true,
      unless_visit false .xyzD _ (ok_xyzD false) D hD .dgridXyz rfl, bind_ok,
      get_done false _ .dgridXyz ((mem_visit _ _ _).mpr (Or.inr (by decide))), bind_ok]
    exact congrArg Except.ok (finish' false _ .center _ hg' rfl rfl (by vals))
  · exact congrArg Except.ok (finish' true D .center _ hg rfl rfl (by vals))

theorem ok_xy (cart : Bool) : RunOk cart .xy (runXY cart) := by
  intro D hD hg
  cases cart
  · have hg' := notMem_visit false D .xy hg
    rw [order, visit_append, runXY, if_neg Bool.false_ne_true,
      unless_visit false .xyzD _ (ok_xyzD false) D hD .dgridXyz rfl, bind_ok,
      get_done false _ .dgridXyz ((mem_visit _ _ _).mpr (Or.inr (by decide))), bind_ok]
    exact congrArg Except.ok (finish' false _ .xy _ hg' rfl rfl (by vals))
  · exact congrArg Except.ok (finish' true D .xy _ hg rfl rfl (by vals))

theorem ok_trig (cart : Bool) : RunOk cart .trig (runTrig cart) := by
  intro D hD hg
  cases cart
  · have hg' := notMem_visit false D .trig hg
    have hc1 := closed_visit false D _ hD (order_closed false .center)
    have hc2 := closed_visit false _ _ hc1 (order_closed false .xyzD)
    have he : visit (visit (visit D (order false .center)) (order false .xyzD)) (order false .xyzA) =
        visit D (before false .trig) := by
      rw [← visit_append, ← visit_append]; rfl
    have hm : ∀ g ∈ before false .trig, g ∈ visit D (before false .trig) :=
      fun g h => (mem_visit _ _ _).mpr (Or.inr h)
    rw [order, visit_append, runTrig, if_neg Bool.false_ne_true,
      unless_visit false .center _ (ok_center false) D hD .ec164 rfl, bind_ok,
      unless_visit false .xyzD _ (ok_xyzD false) _ hc1 .dgridXyz rfl, bind_ok,
      unless_visit false .xyzA _ (ok_xyzA false) _ hc2 .agridXyz rfl, bind_ok, he,
      get_done false _ .dgridXyz (hm _ (by decide)), bind_ok,
      get_done false _ .agridXyz (hm _ (by decide)), bind_ok,
      get_done false _ .ec164 (hm _ (by decide)), bind_ok,
      get_done false _ .ec264 (hm _ (by decide)), bind_ok]
    exact congrArg Except.ok (finish' false _ .trig _ hg' rfl rfl (by unfold trigSets; vals))
  · exact congrArg Except.ok (finish' true D .trig _ hg rfl rfl (by unfold trigSets; vals))

theorem ok_divg (cart : Bool) : RunOk cart .divg (runDivg cart) := by
  intro D hD hg
  have hg' := notMem_visit cart D .divg hg
  have hc1 := closed_visit cart D _ hD (order_closed cart .trig)
  have hc2 := closed_visit cart _ _ hc1 (order_closed cart .dxdy)
  have he : visit (visit (visit D (order cart .trig)) (order cart .dxdy)) (order cart .dxdyC) =
      visit D (before cart .divg) := by
    rw [← visit_append, ← visit_append]; cases cart <;> rfl
  have ht : G.trig ∈ visit D (order cart .trig) := (mem_visit _ _ _).mpr (Or.inr (mem_order _ _))
  have hm : ∀ g ∈ before cart .divg, g ∈ visit D (before cart .divg) :=
    fun g h => (mem_visit _ _ _).mpr (Or.inr h)
  have m1 : G.trig ∈ before cart .divg := by cases cart <;> decide
  have m2 : G.dxdy ∈ before cart .divg := by cases cart <;> decide
  have m3 : G.dxdyC ∈ before cart .divg := by cases cart <;> decide
  rw [order, visit_append, runDivg,
    unless_visit cart .trig _ (ok_trig cart) D hD (.sinSg 0) rfl, bind_ok,
    get_done cart _ (.sinSg 0) ht, bind_ok, unless_done cart _ (.sinSg 1) _ ht, bind_ok,
    get_done cart _ (.sinSg 1) ht, bind_ok, unless_done cart _ (.sinSg 2) _ ht, bind_ok,
    get_done cart _ (.sinSg 2) ht, bind_ok, unless_done cart _ (.sinSg 3) _ ht, bind_ok,
    get_done cart _ (.sinSg 3) ht, bind_ok, unless_done cart _ (.sinSg 4) _ ht, bind_ok,
    get_done cart _ (.sinSg 4) ht, bind_ok, unless_done cart _ .sinaU64 _ ht, bind_ok,
    unless_visit cart .dxdy _ (ok_dxdy cart) _ hc1 .dx64 rfl, bind_ok,
    unless_visit cart .dxdyC _ (ok_dxdyC cart) _ hc2 .dxc64 rfl, bind_ok, he,
    get_done cart _ .sinaU64 (hm _ m1), bind_ok, get_done cart _ .sinaV64 (hm _ m1), bind_ok,
    get_done cart _ .dx64 (hm _ m2), bind_ok, get_done cart _ .dy64 (hm _ m2), bind_ok,
    get_done cart _ .dxc64 (hm _ m3), bind_ok, get_done cart _ .dyc64 (hm _ m3), bind_ok]
  cases cart
  · exact congrArg Except.ok (finish false _ .divg _ hg' rfl (by vals))
  · exact congrArg Except.ok (finish' true _ .divg _ hg' rfl rfl (by vals))

theorem ok_z (cart : Bool) : RunOk cart .z (runZ cart) := by
  intro D hD hg
  have hg' := notMem_visit cart D .z hg
  have hc1 := closed_visit cart D _ hD (order_closed cart .center)
  have he : visit (visit D (order cart .center)) (order cart .lonlat) = visit D (before cart .z) := by
    rw [← visit_append]; rfl
  have hm : ∀ g ∈ before cart .z, g ∈ visit D (before cart .z) :=
    fun g h => (mem_visit _ _ _).mpr (Or.inr h)
  have m1 : G.center ∈ before cart .z := by cases cart <;> decide
  have m2 : G.lonlat ∈ before cart .z := by cases cart <;> decide
  rw [order, visit_append, runZ,
    unless_visit cart .center _ (ok_center cart) D hD .ec164 rfl, bind_ok,
    unless_visit cart .lonlat _ (ok_lonlat cart) _ hc1 .vlon64 rfl, bind_ok, he,
    get_done cart _ .ec164 (hm _ m1), bind_ok, get_done cart _ .ec264 (hm _ m1), bind_ok,
    get_done cart _ .vlon64 (hm _ m2), bind_ok, get_done cart _ .vlat64 (hm _ m2), bind_ok]
  exact congrArg Except.ok (finish' cart _ .z _ hg' rfl rfl (by vals))

theorem ok_a (cart : Bool) : RunOk cart .a (runA cart) := by
  intro D hD hg
  have hg' := notMem_visit cart D .a hg
  have hc1 := closed_visit cart D _ hD (order_closed cart .z)
  have he : visit (visit D (order cart .z)) (order cart .trig) = visit D (before cart .a) := by
    rw [← visit_append]; rfl
  have hm : ∀ g ∈ before cart .a, g ∈ visit D (before cart .a) :=
    fun g h => (mem_visit _ _ _).mpr (Or.inr h)
  have m1 : G.z ∈ before cart .a := by cases cart <;> decide
  have m2 : G.trig ∈ before cart .a := by cases cart <;> decide
  rw [order, visit_append, runA,
    unless_visit cart .z _ (ok_z cart) D hD .z1164 rfl, bind_ok,
    unless_visit cart .trig _ (ok_trig cart) _ hc1 .sinSg564 rfl, bind_ok, he,
    get_done cart _ .z1164 (hm _ m1), bind_ok, get_done cart _ .z1264 (hm _ m1), bind_ok,
    get_done cart _ .z2164 (hm _ m1), bind_ok, get_done cart _ .z2264 (hm _ m1), bind_ok,
    get_done cart _ .sinSg564 (hm _ m2), bind_ok]
  exact congrArg Except.ok (finish' cart _ .a _ hg' rfl rfl (by vals))

theorem ok_edge (cart : Bool) : RunOk cart .edge runEdge := by
  intro D hD hg
  have hg' := notMem_visit cart D .edge hg
  rw [order, visit_append, runEdge, unless_visit cart .grid _ (ok_grid cart) D hD .grid rfl, bind_ok,
    get_done cart _ .grid ((mem_visit _ _ _).mpr (Or.inr (mem_order cart .grid))), bind_ok]
  exact congrArg Except.ok (finish' cart _ .edge _ hg' rfl rfl (by vals))

theorem ok_vect (cart : Bool) : RunOk cart .vect runVect := by
  intro D hD hg
  have hg' := notMem_visit cart D .vect hg
  rw [order, visit_append, runVect, unless_visit cart .grid _ (ok_grid cart) D hD .grid rfl, bind_ok,
    get_done cart _ .grid ((mem_visit _ _ _).mpr (Or.inr (mem_order cart .grid))), bind_ok]
  exact congrArg Except.ok (finish' cart _ .vect _ hg' rfl rfl (by vals))

theorem ok_vect2 (cart : Bool) : RunOk cart .vect2 runVect2 := by
  intro D hD hg
  have hg' := notMem_visit cart D .vect2 hg
  have hc1 := closed_visit cart D _ hD (order_closed cart .grid)
  have he : visit (visit D (order cart .grid)) (order cart .vect) = visit D (before cart .vect2) := by
    rw [← visit_append]; rfl
  have hm : G.vect ∈ visit D (before cart .vect2) := (mem_visit _ _ _).mpr (Or.inr (by cases cart <;> decide))
  rw [order, visit_append, runVect2, unless_visit cart .grid _ (ok_grid cart) D hD .grid rfl, bind_ok,
    unless_visit cart .vect _ (ok_vect cart) _ hc1 .vectE rfl, bind_ok, he,
    get_done cart _ .vectE hm, bind_ok, unless_done cart _ .vectW _ hm, bind_ok,
    get_done cart _ .vectW hm, bind_ok]
  exact congrArg Except.ok (finish' cart _ .vect2 _ hg' rfl rfl (by vals))

theorem ok_minmax (cart : Bool) : RunOk cart .minmax (runMinMax cart) := by
  intro D hD hg
  have hg' := notMem_visit cart D .minmax hg
  have hc1 := closed_visit cart D _ hD (order_closed cart .area)
  have he : visit (visit D (order cart .area)) (order cart .areaC) = visit D (before cart .minmax) := by
    rw [← visit_append]; rfl
  rw [order, visit_append, runMinMax,
    unless_visit cart .area _ (ok_area cart) D hD .area rfl, bind_ok,
    get_done cart _ .area ((mem_visit _ _ _).mpr (Or.inr (mem_order cart .area))), bind_ok,
    unless_visit cart .areaC _ (ok_areaC cart) _ hc1 .areaC rfl, bind_ok,
    get_done cart _ .areaC ((mem_visit _ _ _).mpr (Or.inr (mem_order cart .areaC))), bind_ok, he]
  refine congrArg Except.ok ?_
  simp only [set_say, say_say, set_set]
  exact finish cart _ .minmax _ hg' rfl (by vals)

theorem ok_recip (cart : Bool) (self of : Attr) (g h : G) (run : S → Except Err S)
    (hr : RunOk cart h run) (hof : groupOf of = h) (ho : order cart h = before cart g)
    (he : events cart g = []) (hs : [self] = attrsOf g)
    (hv : attrVal cart self = .app .recip [attrVal cart of]) : RunOk cart g (runRecip self of run) := by
  intro D hD hg
  have hg' := notMem_visit cart D g hg
  rw [order, visit_append, runRecip, unless_visit cart h run hr D hD of hof, bind_ok,
    get_done cart _ of (by rw [hof]; exact (mem_visit _ _ _).mpr (Or.inr (mem_order cart h))), bind_ok, ho]
  refine congrArg Except.ok (finish' cart _ g _ hg' he hs ?_)
  refine List.forall_mem_cons.mpr ⟨hv.symm, ?_⟩
  exact List.forall_mem_nil _

theorem slot_ok (cart : Bool) (t : Term) :
    RunOk cart (groupOf (slot cart t).1) (slot cart t).2 := by
  cases t
  case rarea => exact ok_recip cart _ _ .rarea .area _ (ok_area cart) rfl rfl rfl rfl rfl
  case rareaC => exact ok_recip cart _ _ .rareaC .areaC _ (ok_areaC cart) rfl rfl rfl rfl rfl
  case rdx => exact ok_recip cart _ _ .rdx .dxdy _ (ok_dxdy cart) rfl rfl rfl rfl rfl
  case rdy => exact ok_recip cart _ _ .rdy .dxdy _ (ok_dxdy cart) rfl rfl rfl rfl rfl
  case rdxa => exact ok_recip cart _ _ .rdxa .dxdyA _ (ok_dxdyA cart) rfl rfl rfl rfl rfl
  case rdya => exact ok_recip cart _ _ .rdya .dxdyA _ (ok_dxdyA cart) rfl rfl rfl rfl rfl
  case rdxc => exact ok_recip cart _ _ .rdxc .dxdyC _ (ok_dxdyC cart) rfl rfl rfl rfl rfl
  case rdyc => exact ok_recip cart _ _ .rdyc .dxdyC _ (ok_dxdyC cart) rfl rfl rfl rfl rfl
  all_goals
    first
      | exact ok_grid cart | exact ok_agrid cart | exact ok_dxdy cart | exact ok_dxdyA cart
      | exact ok_dxdyC cart | exact ok_area cart | exact ok_areaC cart | exact ok_center cart
      | exact ok_west cart | exact ok_south cart | exact ok_xy cart | exact ok_l2c cart
      | exact ok_trig cart | exact ok_divg cart | exact ok_lonlat cart | exact ok_z cart
      | exact ok_a cart | exact ok_edge cart | exact ok_vect cart | exact ok_vect2 cart
      | exact ok_minmax cart

theorem slot_value (cart : Bool) (t : Term) : part t (attrVal cart (slot cart t).1) = value cart t := by
  cases t <;> rfl

/-- The group of a term. -/
def termGroup (cart : Bool) (t : Term) : G := groupOf (slot cart t).1

theorem read_ok (cart : Bool) (t : Term) (D : List G) (hD : Closed cart D) :
    read cart t (mk cart D) = .ok (value cart t, mk cart (visit D (order cart (termGroup cart t)))) := by
  rw [read, unless_visit cart _ _ (slot_ok cart t) D hD _ rfl, bind_ok,
    get_done cart _ _ ((mem_visit _ _ _).mpr (Or.inr (mem_order cart _))), bind_ok, slot_value]
  rfl

theorem reads_ok (cart : Bool) (h : List Term) : ∀ (D : List G), Closed cart D →
    reads cart h (mk cart D) =
      .ok (mk cart (visit D (h.flatMap fun t => order cart (termGroup cart t)))) ∧
    Closed cart (visit D (h.flatMap fun t => order cart (termGroup cart t))) := by
  induction h with
  | nil => intro D hD; exact ⟨rfl, hD⟩
  | cons t h ih =>
    intro D hD
    have h1 := closed_visit cart D _ hD (order_closed cart (termGroup cart t))
    have h2 := ih _ h1
    rw [List.flatMap_cons, visit_append]
    refine ⟨?_, h2.2⟩
    rw [reads, read_ok cart t D hD, bind_ok]
    exact h2.1

theorem init_mk (cart : Bool) : init = mk cart [] := by
  unfold init mk
  simp

/-- The group an event belongs to. -/
def evGroup : Ev → G
  | .halo a => groupOf a
  | .vectorHalo a _ => groupOf a
  | .allreduce a => groupOf a

theorem evGroup_ok (cart : Bool) (g : G) : ∀ e ∈ events cart g, evGroup e = g := by
  cases cart <;> cases g <;> decide +kernel

/-! ### C93 -/

/-- **C93** (values): after reading any terms in any order, reading a term succeeds and gives the
value it has as a function of the grid alone. -/
theorem C93_value (cart : Bool) (h : List Term) (t : Term) :
    ∃ s s', reads cart h init = .ok s ∧ read cart t s = .ok (value cart t, s') := by
  have := reads_ok cart h [] (fun g hg => nomatch hg)
  rw [← init_mk] at this
  exact ⟨_, _, this.1, read_ok cart t _ this.2⟩

/-- **C93** (once): every attribute is computed at most once, so that later reads give the same
object; and nothing is communicated twice. -/
theorem C93_once (cart : Bool) (h : List Term) :
    ∃ s, reads cart h init = .ok s ∧ s.sets.Nodup ∧ s.log.Nodup := by
  have := reads_ok cart h [] (fun g hg => nomatch hg)
  rw [← init_mk] at this
  refine ⟨_, this.1, ?_, ?_⟩
  · refine List.nodup_flatMap.mpr ⟨?_, ?_⟩
    · intro g _
      cases g <;> decide +kernel
    · refine (nodup_visit _ [] List.nodup_nil).imp ?_
      intro g g' hne
      intro a ha ha'
      exact hne ((groupOf_attrsOf g a ha).symm.trans (groupOf_attrsOf g' a ha'))
  · refine List.nodup_flatMap.mpr ⟨?_, ?_⟩
    · intro g _
      cases cart <;> cases g <;> decide +kernel
    · refine (nodup_visit _ [] List.nodup_nil).imp ?_
      intro g g' hne
      intro e he he'
      exact hne ((evGroup_ok cart g e he).symm.trans (evGroup_ok cart g' e he'))

/-- **C93** (communication): what a rank communicates depends only on the collective terms it reads
and their order; all other terms can be read at any time, by any rank. -/
theorem C93_communication (cart : Bool) (h : List Term) :
    ∃ s s', reads cart h init = .ok s ∧ reads cart (h.filter (Collective cart)) init = .ok s' ∧
      s.log = s'.log := by
  have h1 := reads_ok cart h [] (fun g hg => nomatch hg)
  have h2 := reads_ok cart (h.filter (Collective cart)) [] (fun g hg => nomatch hg)
  rw [← init_mk] at h1 h2
  refine ⟨_, _, h1.1, h2.1, ?_⟩
  have hq : ∀ t, Collective cart t = false →
      (order cart (termGroup cart t)).filter (fun g => decide (events cart g ≠ [])) = [] := by
    intro t
    cases cart <;> cases t <;> first | (intro h; cases h; done) | (intro _; decide +kernel) | (intro _; rfl)
  have hflat : ∀ D : List G, D.flatMap (events cart) =
      (D.filter (fun g => decide (events cart g ≠ []))).flatMap (events cart) := by
    intro D
    induction D with
    | nil => rfl
    | cons g D ih =>
      by_cases hg : events cart g = []
      · rw [List.filter_cons_of_neg (by simp [hg]), List.flatMap_cons, hg, List.nil_append, ih]
      · rw [List.filter_cons_of_pos (by simp [hg]), List.flatMap_cons, List.flatMap_cons, ih]
  have hh : ∀ l : List Term,
      (l.flatMap fun t => order cart (termGroup cart t)).filter (fun g => decide (events cart g ≠ [])) =
      ((l.filter (Collective cart)).flatMap fun t => order cart (termGroup cart t)).filter
        (fun g => decide (events cart g ≠ [])) := by
    intro l
    induction l with
    | nil => rfl
    | cons t l ih =>
      cases ht : Collective cart t with
      | false =>
        rw [List.filter_cons_of_neg (by simp [ht]), List.flatMap_cons, List.filter_append, hq t ht,
          List.nil_append, ih]
      | true =>
        rw [List.filter_cons_of_pos (by simp [ht]), List.flatMap_cons, List.flatMap_cons,
          List.filter_append, List.filter_append, ih]
  show (visit [] _).flatMap (events cart) = (visit [] _).flatMap (events cart)
  rw [hflat, filter_visit, hh, ← filter_visit, ← hflat]

/-- **C93** (all ranks): ranks that read the collective terms in the same order communicate the same,
whatever else each of them reads. -/
theorem C93_ranks (cart : Bool) (h1 h2 : List Term)
    (he : h1.filter (Collective cart) = h2.filter (Collective cart)) :
    ∃ s1 s2, reads cart h1 init = .ok s1 ∧ reads cart h2 init = .ok s2 ∧ s1.log = s2.log := by
  obtain ⟨s1, s1', a1, b1, c1⟩ := C93_communication cart h1
  obtain ⟨s2, s2', a2, b2, c2⟩ := C93_communication cart h2
  rw [he, b2] at b1
  injection b1 with b1
  exact ⟨s1, s2, a1, a2, by rw [c1, c2, b1]⟩

example : [Term.ec1, .dx, .lon, .divgU].filter (Collective false) =
    [Term.dx, .a11, .divgU].filter (Collective false) := by decide

/-- **C93** (order): ranks that read two collective terms in different order communicate in different
order, and a rank that reads one more communicates more. -/
theorem C93_order_violated :
    (∃ s s', reads false [.dx, .area] init = .ok s ∧ reads false [.area, .dx] init = .ok s' ∧
      s.log = [.vectorHalo .dx64 .dy64, .halo .area64] ∧
      s'.log = [.halo .area64, .vectorHalo .dx64 .dy64]) ∧
    (∃ s s', reads true [.daMin] init = .ok s ∧ reads true [] init = .ok s' ∧
      s.log ≠ [] ∧ s'.log = []) :=
  ⟨⟨_, _, rfl, rfl, rfl, rfl⟩, ⟨_, _, rfl, rfl, by decide, rfl⟩⟩

/-- **C93** (Cartesian grid): there, the vectors and matrices for the conversion of winds to east and
north are NaN. -/
theorem C93_cartesian_nan_violated :
    ∀ t ∈ [Term.vlon, .vlat, .z11, .z12, .z21, .z22, .a11, .a12, .a21, .a22, .ee1, .ee2, .l2cV, .l2cU],
      IsNaN (value true t) := by
  intro t ht
  simp only [List.mem_cons, List.not_mem_nil, or_false] at ht
  rcases ht with rfl | rfl | rfl | rfl | rfl | rfl | rfl | rfl | rfl | rfl | rfl | rfl | rfl | rfl
  all_goals
    first
      | exact .cast _ .nan
      | exact .cast _ (.dot _ _ .nan)
      | exact .cast _ (.half _ _ (.dot _ _ .nan))
      | exact .cast _ (.minusHalf _ _ (.dot _ _ .nan))

end NDSL.Metric
