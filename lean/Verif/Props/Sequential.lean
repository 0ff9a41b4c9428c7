import Verif.Model.Sequential

/-! C138: `make_SDFG_CPU_sequential` takes all OpenMP out of a program graph, and nothing else. -/
namespace NDSL.Sequential

/-! ### Specification -/

/-- what can be seen of a node -/
inductive Item where
  | entry (s : Option Schedule)
  | nested (s : Option Schedule) (sections : Bool)
  | plain (s : Option Schedule)
  deriving DecidableEq, Repr

/-- the node at a path: its number in the graph, after the numbers of the nodes holding the graphs it is in -/
def Nodes.at : Nodes → List Nat → Option Item
  | _, [] => none
  | .done, _ => none
  | .entry s _, [0] => some (.entry s)
  | .plain s _, [0] => some (.plain s)
  | .nested s sec _ _, [0] => some (.nested s sec)
  | .nested _ _ body _, 0 :: p => body.at p
  | .entry _ _, 0 :: _ => none
  | .plain _ _, 0 :: _ => none
  | .entry _ rest, (n + 1) :: p => rest.at (n :: p)
  | .plain _ rest, (n + 1) :: p => rest.at (n :: p)
  | .nested _ _ _ rest, (n + 1) :: p => rest.at (n :: p)

/-- the schedules that use threads on a processor: that of many cores, that of many cores which stay, and the
default one, which becomes one of them -/
def Threads (s : Schedule) : Prop := s = .multicore ∨ s = .persistent ∨ s = .default

/-- what has become of a node: an entry with a schedule that uses threads is sequential; a graph has no sections; all
else is as it was -/
inductive Becomes : Item → Item → Prop
  | threads {s} : Threads s → Becomes (.entry (some s)) (.entry (some .sequential))
  | kept {s} : ¬ Threads s → Becomes (.entry (some s)) (.entry (some s))
  | none : Becomes (.entry none) (.entry none)
  | nested {s b} : Becomes (.nested s b) (.nested s false)
  | plain {s} : Becomes (.plain s) (.plain s)

/-! ### Theorems -/

def becomes : Item → Item
  | .entry s => .entry (entrySchedule s)
  | .nested s _ => .nested s false
  | .plain s => .plain s

theorem at_make : ∀ (t : Nodes) (p : List Nat), (t.noSections.noParallel).at p = (t.at p).map becomes
  | t, [] => by cases t <;> rfl
  | .done, a :: p => rfl
  | .entry s rest, 0 :: [] => rfl
  | .plain s rest, 0 :: [] => rfl
  | .nested s sec body rest, 0 :: [] => rfl
  | .nested s sec body rest, 0 :: b :: p => by
    simp only [Nodes.noSections, Nodes.noParallel, Nodes.at]; exact at_make body (b :: p)
  | .entry s rest, 0 :: b :: p => rfl
  | .plain s rest, 0 :: b :: p => rfl
  | .entry s rest, (n + 1) :: p => by
    simp only [Nodes.noSections, Nodes.noParallel, Nodes.at]; exact at_make rest (n :: p)
  | .plain s rest, (n + 1) :: p => by
    simp only [Nodes.noSections, Nodes.noParallel, Nodes.at]; exact at_make rest (n :: p)
  | .nested s sec body rest, (n + 1) :: p => by
    simp only [Nodes.noSections, Nodes.noParallel, Nodes.at]; exact at_make rest (n :: p)

theorem becomes_spec (x : Item) : Becomes x (becomes x) := by
  rcases x with (_ | s) | ⟨s, b⟩ | s
  · exact .none
  · cases s
    · exact .threads (.inr (.inr rfl))
    · exact .kept (by simp [Threads])
    · exact .threads (.inl rfl)
    · exact .threads (.inr (.inl rfl))
    · exact .kept (by simp [Threads])
  · exact .nested
  · exact .plain

/-- **C138**: at every depth the graph has the same nodes as before, each being what has become of the one before -/
theorem C138_nodes (g : Graph) (p : List Nat) :
    (∀ x, g.nodes.at p = some x → ∃ y, (makeSequential g).nodes.at p = some y ∧ Becomes x y) ∧
    (∀ y, (makeSequential g).nodes.at p = some y → ∃ x, g.nodes.at p = some x ∧ Becomes x y) := by
  have h : (makeSequential g).nodes.at p = (g.nodes.at p).map becomes := at_make g.nodes p
  constructor
  · intro x hx
    exact ⟨becomes x, by rw [h, hx]; rfl, becomes_spec x⟩
  · intro y hy
    rw [h] at hy
    cases hx : g.nodes.at p with
    | none => rw [hx] at hy; cases hy
    | some x => rw [hx] at hy; cases hy; exact ⟨x, rfl, becomes_spec x⟩

/-- **C138**: afterwards no entry of a scope at any depth uses threads -/
theorem C138_no_threads (g : Graph) (p : List Nat) (s : Schedule)
    (h : (makeSequential g).nodes.at p = some (.entry (some s))) : ¬ Threads s := by
  obtain ⟨x, _, hb⟩ := (C138_nodes g p).2 _ h
  cases hb with
  | threads _ => simp [Threads]
  | kept hk => exact hk

/-- **C138**: afterwards neither the graph nor any graph in it has OpenMP sections -/
theorem C138_no_sections (g : Graph) : (makeSequential g).sections = false ∧
    ∀ (p : List Nat) (s : Option Schedule) (b : Bool),
      (makeSequential g).nodes.at p = some (.nested s b) → b = false := by
  refine ⟨rfl, fun p s b h => ?_⟩
  obtain ⟨x, _, hb⟩ := (C138_nodes g p).2 _ h
  cases hb; rfl

/-- **C138**: a second call changes nothing -/
theorem C138_twice (g : Graph) : makeSequential (makeSequential g) = makeSequential g := by
  have he : ∀ s, entrySchedule (entrySchedule s) = entrySchedule s := by
    intro s
    rcases s with _ | (_ | _ | _ | _ | n) <;> rfl
  have : ∀ t : Nodes, t.noSections.noParallel.noSections.noParallel = t.noSections.noParallel := by
    intro t
    induction t with
    | done => rfl
    | entry s rest ih => simp only [Nodes.noSections, Nodes.noParallel, ih, he]
    | nested s b body rest ih1 ih2 => simp only [Nodes.noSections, Nodes.noParallel, ih1, ih2]
    | plain s rest ih => simp only [Nodes.noSections, Nodes.noParallel, ih]
  exact congrArg (Graph.mk false) (this g.nodes)

/-! A case: a map on many cores whose body holds a graph with another map, one on a device, and a library call. -/

def sample : Graph :=
  ⟨true, .entry (some .multicore) (.nested none true (.entry (some .default) (.entry (some (.other 1)) .done))
    (.plain (some .multicore) .done))⟩

example : makeSequential sample =
    ⟨false, .entry (some .sequential) (.nested none false (.entry (some .sequential) (.entry (some (.other 1)) .done))
      (.plain (some .multicore) .done))⟩ := by decide

example : sample.nodes.at [1, 0] = some (.entry (some .default)) := by decide

/-- **C138**, what does not hold: the graph need not be serial afterwards, since a call of a library scheduled on many
cores, or a nested graph so scheduled, stays as it was -/
theorem C138_serial_violated : ∃ g p, (makeSequential g).nodes.at p = some (.plain (some .multicore)) :=
  ⟨sample, [2], by decide⟩

end NDSL.Sequential
