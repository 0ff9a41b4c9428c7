import Verif.Model.TreeSwap
import Mathlib.Data.List.Nodup
/-
C136: swapping a node of a schedule tree with its child, and detecting cycles.
-/
namespace NDSL.TreeSwap

/-! Specification: trees without references. -/

/-- A list of trees: the first one has a node and trees below it. -/
inductive Forest where
  | nil
  | cons (node : Nat) (below : Forest) (rest : Forest)

/-- The nodes on top. -/
def Forest.roots : Forest → List Nat
  | .nil => []
  | .cons n _ rest => n :: rest.roots

/-- All nodes, from top to bottom and from first to last. -/
def Forest.ids : Forest → List Nat
  | .nil => []
  | .cons n below rest => n :: (below.ids ++ rest.ids)

def Forest.append : Forest → Forest → Forest
  | .nil, g => g
  | .cons n below rest, g => .cons n below (rest.append g)

/-- The objects hold these trees below `p`: children and parents agree with them. -/
def Holds (h : Heap) (p : Nat) : Forest → Prop
  | .nil => True
  | .cons n below rest => (h n).parent = some p ∧ (h n).children = below.roots ∧ Holds h n below ∧ Holds h p rest

/-- The objects hold a node `p` with these trees below it, and no node occurs twice. -/
def IsTree (h : Heap) (p : Nat) (f : Forest) : Prop :=
  (h p).children = f.roots ∧ Holds h p f ∧ (p :: f.ids).Nodup

/-! Lemmas. -/

theorem roots_append : ∀ f g : Forest, (f.append g).roots = f.roots ++ g.roots
  | .nil, _ => rfl
  | .cons n b r, g => by simp [Forest.append, Forest.roots, roots_append r g]

theorem ids_append : ∀ f g : Forest, (f.append g).ids = f.ids ++ g.ids
  | .nil, _ => rfl
  | .cons n b r, g => by simp [Forest.append, Forest.ids, ids_append r g]

theorem holds_append (h : Heap) (p : Nat) : ∀ f g : Forest, Holds h p (f.append g) ↔ Holds h p f ∧ Holds h p g
  | .nil, _ => by simp [Forest.append, Holds]
  | .cons n b r, g => by simp [Forest.append, Holds, holds_append h p r g, and_assoc]

theorem roots_ids : ∀ (f : Forest) (x : Nat), x ∈ f.roots → x ∈ f.ids
  | .cons n b r, x, hx => by
    simp only [Forest.roots, Forest.ids, List.mem_cons, List.mem_append] at *
    rcases hx with h | h
    · exact .inl h
    · exact .inr (.inr (roots_ids r x h))

theorem holds_congr (h h' : Heap) : ∀ (p : Nat) (f : Forest), (∀ x ∈ f.ids, h' x = h x) → Holds h p f → Holds h' p f
  | _, .nil, _, _ => trivial
  | p, .cons n b r, hc, ho => by
    simp only [Forest.ids, List.mem_cons, List.mem_append] at hc
    refine ⟨?_, ?_, holds_congr h h' n b (fun x hx => hc x (.inr (.inl hx))) ho.2.2.1,
      holds_congr h h' p r (fun x hx => hc x (.inr (.inr hx))) ho.2.2.2⟩
    · rw [hc n (.inl rfl)]; exact ho.1
    · rw [hc n (.inl rfl)]; exact ho.2.1

/-- With other parents on top. -/
theorem holds_moved (h h' : Heap) (p q : Nat) : ∀ f : Forest, f.ids.Nodup → (∀ x ∈ f.ids, x ∉ f.roots → h' x = h x) →
    (∀ x ∈ f.roots, h' x = ⟨(h x).children, some q⟩) → Holds h p f → Holds h' q f
  | .nil, _, _, _, _ => trivial
  | .cons n b r, hn, h1, h2, ho => by
    simp only [Forest.ids, List.nodup_cons, List.mem_append, not_or, List.nodup_append] at hn
    obtain ⟨⟨hnb, hnr⟩, hb, hr, hbr⟩ := hn
    have e := h2 n (by simp [Forest.roots])
    refine ⟨by rw [e], by rw [e]; exact ho.2.1, holds_congr h h' n b (fun x hx => ?_) ho.2.2.1,
      holds_moved h h' p q r hr (fun x hx hx' => ?_) (fun x hx => ?_) ho.2.2.2⟩
    · refine h1 x (by simp [Forest.ids, hx]) ?_
      simp only [Forest.roots, List.mem_cons, not_or]
      exact ⟨fun e => hnb (e ▸ hx), fun h' => hbr x hx x (roots_ids r x h') rfl⟩
    · refine h1 x (by simp [Forest.ids, hx]) ?_
      simp only [Forest.roots, List.mem_cons, not_or]
      exact ⟨fun e => hnr (e ▸ hx), hx'⟩
    · exact h2 x (by simp [Forest.roots, hx])

theorem reparent_get : ∀ (l : List Nat) (h : Heap) (p x : Nat),
    reparent h l p x = if x ∈ l then ⟨(h x).children, some p⟩ else h x
  | [], h, p, x => by simp [reparent]
  | c :: l, h, p, x => by
    have ih := reparent_get l (setParent h c p) p x
    simp only [reparent, List.foldl_cons] at ih ⊢
    rw [ih]
    by_cases hx : x ∈ l
    · simp only [hx, if_true, List.mem_cons, or_true, setParent]
      split <;> rfl
    · by_cases hc : x = c
      · subst hc; simp [hx, setParent]
      · simp [hx, hc, setParent]

theorem listIndex_eq : ∀ (b : List Nat) (n : Nat) (a : List Nat), n ∉ b → listIndex (b ++ n :: a) n = some b.length
  | [], n, a, _ => by simp [listIndex, List.findIdx?_cons]
  | x :: b, n, a, h => by
    simp only [List.mem_cons, not_or] at h
    have ih := listIndex_eq b n a h.2
    simp only [listIndex] at ih
    simp [listIndex, List.findIdx?_cons, ih, show (x == n) = false by simpa using fun e => h.1 e.symm]

theorem insertAt_eq (b a : List Nat) (n x : Nat) : insertAt (b ++ n :: a) b.length x = b ++ x :: n :: a := by
  simp [insertAt]

theorem removeEq_eq (eq : Nat → Bool) (n : Nat) : ∀ (b a : List Nat), n ∉ b → (∀ x ∈ b, eq x = false) →
    removeEq eq n (b ++ n :: a) = some (b ++ a)
  | [], a, _, _ => by simp [removeEq]
  | x :: b, a, h, he => by
    simp only [List.mem_cons, not_or] at h
    simp [removeEq, removeEq_eq eq n b a h.2 (fun y hy => he y (List.mem_cons_of_mem _ hy)), he x (List.mem_cons_self ..),
      show x ≠ n from fun e => h.1 e.symm]

theorem removeEq_first (eq : Nat → Bool) (n y : Nat) : ∀ (b a : List Nat), n ∉ b → (∀ x ∈ b, eq x = false) → eq y = true →
    removeEq eq n (b ++ y :: a) = some (b ++ a)
  | [], a, _, _, hy => by simp [removeEq, hy]
  | x :: b, a, h, he, hy => by
    simp only [List.mem_cons, not_or] at h
    simp [removeEq, removeEq_first eq n y b a h.2 (fun z hz => he z (List.mem_cons_of_mem _ hz)) hy, he x (List.mem_cons_self ..),
      show x ≠ n from fun e => h.1 e.symm]

/-- The objects before `remove`. -/
def mid (h : Heap) (p top child : Nat) (l : List Nat) : Heap :=
  setParent (setParent (setChildren (setChildren (setChildren h top (h child).children) child [top]) p l) top child) child p

/-- The objects after `remove`. -/
def done (h : Heap) (p top child : Nat) (l' l : List Nat) : Heap :=
  let h5 := setChildren (mid h p top child l') p l
  let h6 := reparent h5 (h5 top).children top
  reparent h6 (h6 child).children child

/-- The objects after a swap, if `remove` leaves `l`. -/
theorem swap_eq (eq : Heap → Nat → Nat → Bool) (h : Heap) (p top child : Nat) (b a l : List Nat)
    (hp : (h top).parent = some p) (hc : (h p).children = b ++ top :: a) (hb : top ∉ b)
    (h1 : p ≠ top) (h2 : p ≠ child) (h3 : top ≠ child)
    (hn : top ∉ (h child).children) (hn' : child ∉ (h child).children) (hn2 : p ∉ (h child).children)
    (hl : ∀ h', removeEq (eq h' · top) top (b ++ child :: top :: a) = some l) :
    ∃ h', swap eq h top child = some h' ∧ h' p = ⟨l, (h p).parent⟩ ∧ h' top = ⟨(h child).children, some child⟩ ∧
      h' child = ⟨[top], some p⟩ ∧
      (∀ x ∈ (h child).children, h' x = ⟨(h x).children, some top⟩) ∧
      (∀ x, x ≠ p → x ≠ top → x ≠ child → x ∉ (h child).children → h' x = h x) := by
  have e2 : ((setChildren (setChildren h top (h child).children) child [top]) p).children = b ++ top :: a := by
    simp [setChildren, h1, h2, hc]
  refine ⟨done h p top child (b ++ child :: top :: a) l, ?_, ?_⟩
  · have e4 : (mid h p top child (b ++ child :: top :: a) p).children = b ++ child :: top :: a := by
      simp [mid, setParent, setChildren, h1, h2]
    have e5 := hl (mid h p top child (b ++ child :: top :: a))
    rw [mid] at e4 e5
    unfold swap
    rw [hp]
    simp only [e2, listIndex_eq b top a hb, insertAt_eq, e4, e5]
    rfl
  · have e5 : (setChildren (mid h p top child (b ++ child :: top :: a)) p l top).children = (h child).children := by
      simp [mid, setParent, setChildren, h1.symm, h3]
    have e6 : ((reparent (setChildren (mid h p top child (b ++ child :: top :: a)) p l) (h child).children top) child).children =
        [top] := by
      rw [reparent_get, if_neg hn']
      simp [mid, setParent, setChildren, h2.symm, h3.symm]
    have e : ∀ x, done h p top child (b ++ child :: top :: a) l x = if x = top then ⟨(h child).children, some child⟩ else
        if x = child then ⟨[top], some p⟩ else if x = p then ⟨l, (h p).parent⟩ else
        if x ∈ (h child).children then ⟨(h x).children, some top⟩ else h x := by
      intro x
      simp only [done, e5, e6]
      rw [reparent_get, reparent_get]
      by_cases x1 : x = top
      · subst x1
        simp [hn, mid, setParent, setChildren, h1.symm, h3]
      · by_cases x2 : x = child
        · subst x2
          simp [x1, hn', mid, setParent, setChildren, h2.symm]
        · by_cases x3 : x = p
          · subst x3
            simp [x1, x2, hn2, mid, setParent, setChildren]
          · simp [x1, x2, x3, mid, setParent, setChildren]
    refine ⟨by rw [e, if_neg h1, if_neg h2, if_pos rfl], by rw [e, if_pos rfl], by rw [e, if_neg h3.symm, if_pos rfl],
      fun x hx => ?_, fun x x1 x2 x3 x4 => by rw [e, if_neg x2, if_neg x3, if_neg x1, if_neg x4]⟩
    rw [e, if_neg (fun e : x = top => hn (e ▸ hx)), if_neg (fun e : x = child => hn' (e ▸ hx)),
      if_neg (fun e : x = p => hn2 (e ▸ hx)), if_pos hx]

/-- With other nodes after the child, whatever they are. -/
theorem swap_tree (eq : Heap → Nat → Nat → Bool) (h : Heap) (p top child : Nat) (before inner others after : Forest)
    (ht : IsTree h p (before.append (.cons top (.cons child inner others) after)))
    (he : ∀ h', (∀ x ∈ before.roots, eq h' x top = false) ∧ eq h' child top = false) :
    ∃ h', swap eq h top child = some h' ∧
      IsTree h' p (before.append (.cons child (.cons top inner .nil) after)) ∧
      (h' p).parent = (h p).parent ∧
      ∀ x, x ∉ p :: (before.append (.cons top (.cons child inner .nil) after)).ids → h' x = h x := by
  obtain ⟨hc, hh, hn⟩ := ht
  rw [roots_append] at hc
  rw [holds_append] at hh
  obtain ⟨hb, ht1, ht2, ⟨hc1, hc2, hi, ho⟩, ha⟩ := hh
  simp only [ids_append, Forest.ids, List.nodup_cons, List.mem_append, List.mem_cons, List.nodup_append, not_or] at hn
  obtain ⟨⟨p1, p2, ⟨p3, p4, p5⟩, p6⟩, n1, ⟨⟨⟨t1, t2, t3⟩, t4⟩, ⟨⟨c1, c2⟩, n2, n3, n4⟩, n5, n6⟩, n7⟩ := hn
  have htb : top ∉ before.roots := fun hx => n7 top (roots_ids _ _ hx) top (.inl rfl) rfl
  obtain ⟨h', e, k1, k2, k3, k4, k5⟩ := swap_eq eq h p top child before.roots after.roots (before.roots ++ child :: after.roots)
    ht1 hc htb p2 p3 t1 (by rw [hc2]; exact fun hx => t2 (roots_ids _ _ hx)) (by rw [hc2]; exact fun hx => c1 (roots_ids _ _ hx))
    (by rw [hc2]; exact fun hx => p4 (roots_ids _ _ hx)) (fun h' => by
      have := removeEq_eq (eq h' · top) top (before.roots ++ [child]) after.roots
        (by simp only [List.mem_append, List.mem_singleton, not_or]; exact ⟨htb, t1⟩)
        (by
          intro x hx
          rcases List.mem_append.1 hx with hx | hx
          · exact (he h').1 x hx
          · rw [List.mem_singleton.1 hx]; exact (he h').2)
      simpa using this)
  rw [hc2] at k4 k5
  have hbs : ∀ x ∈ before.ids, x ≠ p ∧ x ≠ top ∧ x ≠ child ∧ x ∉ inner.ids := fun x hx =>
    ⟨fun e => p1 (e ▸ hx), n7 x hx top (.inl rfl), n7 x hx child (.inr (.inl (.inl rfl))),
      fun hi => n7 x hx x (.inr (.inl (.inr (.inl hi)))) rfl⟩
  have has : ∀ x ∈ after.ids, x ≠ p ∧ x ≠ top ∧ x ≠ child ∧ x ∉ inner.ids := fun x hx =>
    ⟨fun e => p6 (e ▸ hx), fun e => t4 (e ▸ hx), fun e => n6 x (.inl e) x hx rfl,
      fun hi => n6 x (.inr (.inl hi)) x hx rfl⟩
  have same : ∀ x, x ≠ p ∧ x ≠ top ∧ x ≠ child ∧ x ∉ inner.ids → h' x = h x := fun x ⟨x1, x2, x3, x4⟩ =>
    k5 x x1 x2 x3 (fun hx => x4 (roots_ids _ _ hx))
  have hin : ∀ x ∈ inner.ids, x ≠ p ∧ x ≠ top ∧ x ≠ child := fun x hx =>
    ⟨fun e => p4 (e ▸ hx), fun e => t2 (e ▸ hx), fun e => c1 (e ▸ hx)⟩
  refine ⟨h', e, ⟨?_, ?_, ?_⟩, by rw [k1], fun x hx => same x ?_⟩
  · rw [k1, roots_append]; rfl
  · rw [holds_append]
    refine ⟨holds_congr h h' p _ (fun x hx => same x (hbs x hx)) hb, by rw [k3], by rw [k3]; rfl,
      ⟨by rw [k2], by rw [k2]; exact hc2, ?_, trivial⟩, holds_congr h h' p _ (fun x hx => same x (has x hx)) ha⟩
    refine holds_moved h h' child top inner n2 (fun x hx hx' => ?_) k4 hi
    obtain ⟨x1, x2, x3⟩ := hin x hx
    exact k5 x x1 x2 x3 hx'
  · simp only [ids_append, Forest.ids, List.nodup_cons, List.mem_append, List.mem_cons, List.nodup_append, not_or, List.append_nil]
    refine ⟨⟨p1, p3, ⟨p2, p4⟩, p6⟩, n1, ⟨⟨⟨fun e => t1 e.symm, c1⟩, fun hx => n6 child (.inl rfl) child hx rfl⟩, ⟨t2, n2⟩, n5,
      fun x hx y hy => ?_⟩, fun x hx y hy => ?_⟩
    · obtain ⟨y1, y2, y3, y4⟩ := has y hy
      rcases hx with rfl | hx
      · exact fun e => y2 e.symm
      · exact fun e => y4 (e ▸ hx)
    · obtain ⟨x1, x2, x3, x4⟩ := hbs x hx
      rcases hy with rfl | (rfl | hy) | hy
      · exact x3
      · exact x2
      · exact fun e => x4 (e ▸ hy)
      · exact n7 x hx y (.inr (.inr hy))
  · simp only [ids_append, Forest.ids, List.mem_cons, List.mem_append, not_or, List.append_nil] at hx
    exact ⟨hx.1, hx.2.2.1, hx.2.2.2.1.1, hx.2.2.2.1.2⟩

/-! The property. -/

/-- C136: swapping a node with its only child: the child takes its place among the nodes before and after it, has it as its only
child, and it has the nodes that were below the child. All references between children and parents agree with this; no other object
is changed. It holds if no earlier node of that place, and not the child, is equal to the node. -/
theorem C136_swap (eq : Heap → Nat → Nat → Bool) (h : Heap) (p top child : Nat) (before inner after : Forest)
    (ht : IsTree h p (before.append (.cons top (.cons child inner .nil) after)))
    (he : ∀ h', (∀ x ∈ before.roots, eq h' x top = false) ∧ eq h' child top = false) :
    ∃ h', swap eq h top child = some h' ∧
      IsTree h' p (before.append (.cons child (.cons top inner .nil) after)) ∧
      (h' p).parent = (h p).parent ∧
      ∀ x, x ∉ p :: (before.append (.cons top (.cons child inner .nil) after)).ids → h' x = h x :=
  swap_tree eq h p top child before inner .nil after ht he

/-- Not so if the node has further children after the child: none of them is in the tree afterwards. -/
theorem C136_others_violated (eq : Heap → Nat → Nat → Bool) (h : Heap) (p top child : Nat) (before inner others after : Forest)
    (ht : IsTree h p (before.append (.cons top (.cons child inner others) after)))
    (he : ∀ h', (∀ x ∈ before.roots, eq h' x top = false) ∧ eq h' child top = false) :
    ∃ h' f, swap eq h top child = some h' ∧ IsTree h' p f ∧ ∀ x ∈ others.ids, x ∉ f.ids := by
  obtain ⟨h', e, t, -, -⟩ := swap_tree eq h p top child before inner others after ht he
  refine ⟨h', _, e, t, fun x hx hx' => ?_⟩
  have hn := ht.2.2
  simp only [ids_append, Forest.ids, List.nodup_cons, List.mem_append, List.mem_cons, List.nodup_append, not_or] at hn
  obtain ⟨-, -, ⟨⟨⟨-, -, t3⟩, -⟩, ⟨⟨-, c2⟩, -, -, n4⟩, -, n6⟩, n7⟩ := hn
  simp only [ids_append, Forest.ids, List.mem_cons, List.mem_append, List.append_nil] at hx'
  rcases hx' with hx' | rfl | (rfl | hx') | hx'
  · exact n7 x hx' x (.inr (.inl (.inr (.inr hx)))) rfl
  · exact c2 hx
  · exact t3 hx
  · exact n4 x hx' x hx rfl
  · exact n6 x (.inr (.inr hx)) x hx' rfl

/-- Not so if an earlier node `y` of that place is equal to the node: `y` is taken away instead, and the node is found twice, in its old
place after the child and below the child. -/
theorem C136_equal_violated (eq : Heap → Nat → Nat → Bool) (h : Heap) (p top child y : Nat) (before yBelow between inner after : Forest)
    (ht : IsTree h p (before.append (.cons y yBelow (between.append (.cons top (.cons child inner .nil) after)))))
    (he : ∀ h', (∀ x ∈ before.roots, eq h' x top = false) ∧ eq h' y top = true) :
    ∃ h', swap eq h top child = some h' ∧
      (h' p).children = before.roots ++ between.roots ++ child :: top :: after.roots ∧ y ∉ (h' p).children ∧
      (h' child).children = [top] := by
  obtain ⟨hc, hh, hn⟩ := ht
  simp only [roots_append, Forest.roots] at hc
  simp only [holds_append, Holds] at hh
  obtain ⟨-, -, -, -, -, ht1, -, ⟨-, hc2, -⟩, -⟩ := hh
  simp only [ids_append, Forest.ids, List.append_nil, List.nodup_cons, List.mem_append, List.mem_cons, List.nodup_append, not_or] at hn
  have hyb : ∀ z, z ∈ (before.append (.cons y yBelow between)).roots → z ≠ top ∧ z ≠ child ∧ z ∉ inner.ids := by
    intro z hz
    simp only [roots_append, Forest.roots, List.mem_append, List.mem_cons] at hz
    have hz' : z ∈ before.ids ∨ z = y ∨ z ∈ between.ids := by
      rcases hz with hz | hz | hz
      · exact .inl (roots_ids _ _ hz)
      · exact .inr (.inl hz)
      · exact .inr (.inr (roots_ids _ _ hz))
    grind
  have hb : top ∉ before.roots ++ y :: between.roots := fun hx =>
    (hyb top (by simpa [roots_append, Forest.roots] using hx)).1 rfl
  obtain ⟨h', e, k1, -, k3, -, -⟩ := swap_eq eq h p top child (before.roots ++ y :: between.roots) after.roots
    (before.roots ++ between.roots ++ child :: top :: after.roots) ht1 (by rw [hc]; simp) hb (by grind) (by grind) (by grind)
    (by rw [hc2]; exact fun hx => by have := roots_ids _ _ hx; grind)
    (by rw [hc2]; exact fun hx => by have := roots_ids _ _ hx; grind)
    (by rw [hc2]; exact fun hx => by have := roots_ids _ _ hx; grind) (fun h' => by
      have := removeEq_first (eq h' · top) top y before.roots (between.roots ++ child :: top :: after.roots)
        (fun hx => hb (List.mem_append_left _ hx)) (he h').1 (he h').2
      simpa using this)
  refine ⟨h', e, by rw [k1], ?_, by rw [k3]⟩
  rw [k1]
  simp only [List.mem_append, List.mem_cons, not_or]
  have r1 := roots_ids before y
  have r2 := roots_ids between y
  have r3 := roots_ids after y
  grind

/-! Cycles. -/

/-- Going down from these nodes ends, and finds these trees; a node may be found more than once. -/
def Unfolds (h : Heap) : Forest → Prop
  | .nil => True
  | .cons n below rest => (h n).children = below.roots ∧ Unfolds h below ∧ Unfolds h rest

/-- Going down one or more times from `a`, one gets to `b`. -/
inductive Below (h : Heap) : Nat → Nat → Prop
  | one {a b : Nat} : b ∈ (h a).children → Below h a b
  | more {a b c : Nat} : b ∈ (h a).children → Below h b c → Below h a c

/-- How many of these are found that were found before, `v` being those found first. -/
def again : List Nat → List Nat → Nat
  | _, [] => 0
  | v, x :: l => (if x ∈ v then 1 else 0) + again (x :: v) l

theorem again_append : ∀ (l m v : List Nat), again v (l ++ m) = again v l + again (l.reverse ++ v) m
  | [], m, v => by simp [again]
  | x :: l, m, v => by simp [again, again_append l m (x :: v), Nat.add_assoc]

theorem again_zero : ∀ (l v : List Nat), again v l = 0 ↔ l.Nodup ∧ ∀ x ∈ l, x ∉ v
  | [], v => by simp [again]
  | x :: l, v => by
    have ih := again_zero l (x :: v)
    by_cases hx : x ∈ v
    · simp [again, hx]
    · simp only [again, hx, if_false, Nat.zero_add, ih, List.nodup_cons, List.mem_cons, not_or, forall_eq_or_imp, not_false_eq_true,
        true_and]
      constructor
      · exact fun ⟨a, b⟩ => ⟨⟨fun hx' => (b x hx').1 rfl, a⟩, fun y hy => (b y hy).2⟩
      · exact fun ⟨⟨a, b⟩, c⟩ => ⟨b, fun y hy => ⟨fun e => a (e ▸ hy), c y hy⟩⟩

theorem detect_unfolds (h : Heap) : ∀ (f : Forest) (v : List Nat), Unfolds h f →
    ∃ N, ∀ fuel, N ≤ fuel → detectCycle h fuel f.roots v = some (f.ids.reverse ++ v, again v f.ids)
  | .nil, v, _ => ⟨1, fun fuel hf => by
      obtain ⟨k, rfl⟩ : ∃ k, fuel = k + 1 := ⟨fuel - 1, by omega⟩
      simp [Forest.roots, detectCycle, Forest.ids, again]⟩
  | .cons n below rest, v, hu => by
    obtain ⟨N1, h1⟩ := detect_unfolds h below (n :: v) hu.2.1
    obtain ⟨N2, h2⟩ := detect_unfolds h rest (below.ids.reverse ++ n :: v) hu.2.2
    refine ⟨max N1 N2 + 1, fun fuel hf => ?_⟩
    obtain ⟨k, rfl⟩ : ∃ k, fuel = k + 1 := ⟨fuel - 1, by omega⟩
    simp only [Forest.roots, detectCycle, hu.1, h1 k (by omega), h2 k (by omega), Forest.ids, again, again_append]
    simp [Nat.add_assoc]

/-- C136: in a tree no cycle is reported, and every node is visited. -/
theorem C136_no_cycle (h : Heap) (p : Nat) (f : Forest) (ht : IsTree h p f) :
    ∃ N, ∀ fuel, N ≤ fuel → ∃ v, detectCycle h fuel (h p).children [] = some (v, 0) ∧ ∀ x, x ∈ v ↔ x ∈ f.ids := by
  have hu : ∀ (f : Forest) (p : Nat), Holds h p f → Unfolds h f := by
    intro f
    induction f with
    | nil => exact fun _ _ => trivial
    | cons n b r ih1 ih2 => exact fun p hh => ⟨hh.2.1, ih1 n hh.2.2.1, ih2 p hh.2.2.2⟩
  obtain ⟨N, hN⟩ := detect_unfolds h f [] (hu f p ht.2.1)
  refine ⟨N, fun fuel hf => ⟨f.ids.reverse, ?_, fun x => List.mem_reverse⟩⟩
  rw [ht.1, hN fuel hf, (again_zero f.ids []).2 ⟨(List.nodup_cons.1 ht.2.2).2, fun _ _ => List.not_mem_nil⟩, List.append_nil]

/-- C136: if going down ends, a cycle is reported if and only if a node is found twice. -/
theorem C136_twice (h : Heap) (f : Forest) (hu : Unfolds h f) :
    ∃ N, ∀ fuel, N ≤ fuel → ∃ v k, detectCycle h fuel f.roots [] = some (v, k) ∧ (k = 0 ↔ f.ids.Nodup) := by
  obtain ⟨N, hN⟩ := detect_unfolds h f [] hu
  refine ⟨N, fun fuel hf => ⟨_, _, hN fuel hf, ?_⟩⟩
  rw [again_zero]
  exact ⟨fun a => a.1, fun a => ⟨a, fun _ _ => List.not_mem_nil⟩⟩

/-- Not so for a node below itself: the search never ends. -/
theorem C136_cycle_violated (h : Heap) (c : Nat) (hc : Below h c c) (l v : List Nat) (hl : c ∈ l) (fuel : Nat) :
    detectCycle h fuel l v = none := by
  have step : ∀ n, (n = c ∨ Below h n c) → ∃ m ∈ (h n).children, m = c ∨ Below h m c := by
    intro n hn
    have hb : Below h n c := by
      rcases hn with rfl | hn
      · exact hc
      · exact hn
    cases hb with
    | one hm => exact ⟨c, hm, .inl rfl⟩
    | more hm hb => exact ⟨_, hm, .inr hb⟩
  have key : ∀ (fuel : Nat) (l v : List Nat) (n : Nat), n ∈ l → (n = c ∨ Below h n c) → detectCycle h fuel l v = none := by
    intro fuel
    induction fuel with
    | zero => intros; rfl
    | succ fuel ih =>
      intro l v n hn hb
      cases l with
      | nil => cases hn
      | cons x l =>
        rcases List.mem_cons.1 hn with rfl | hn
        · obtain ⟨m, hm, hm'⟩ := step n hb
          simp only [detectCycle, ih _ _ m hm hm']
        · simp only [detectCycle]
          split
          · rfl
          · rw [ih _ _ n hn hb]
  exact key fuel l v c hl (.inl rfl)

/-! Examples: node 0 with the children 1, 2 and 5; 2 has the only child 3, 3 the child 4. -/

def heap : Heap
  | 0 => ⟨[1, 2, 5], none⟩
  | 1 => ⟨[], some 0⟩
  | 2 => ⟨[3], some 0⟩
  | 3 => ⟨[4], some 2⟩
  | 4 => ⟨[], some 3⟩
  | 5 => ⟨[], some 0⟩
  | _ => ⟨[], none⟩

example : IsTree heap 0 ((Forest.cons 1 .nil .nil).append (.cons 2 (.cons 3 (.cons 4 .nil .nil) .nil) (.cons 5 .nil .nil))) := by
  simp [IsTree, Holds, Forest.append, Forest.roots, Forest.ids, heap]

example : ((swap (fun _ _ _ => false) heap 2 3).map fun h => ((h 0).children, (h 3).children, (h 2).children, (h 4).parent)) =
    some ([1, 3, 5], [2], [4], some 2) := by decide +kernel
example : ((swap (fun _ a b => a == 1 && b == 2) heap 2 3).map fun h => ((h 0).children, (h 3).children)) =
    some ([3, 2, 5], [2]) := by decide +kernel
example : detectCycle heap 9 [1, 2, 5] [] = some ([5, 4, 3, 2, 1], 0) := by decide +kernel
example : Below (fun n => if n = 0 then ⟨[1], none⟩ else ⟨[0], none⟩) 0 0 := .more (b := 1) (by simp) (.one (by simp))

end NDSL.TreeSwap
