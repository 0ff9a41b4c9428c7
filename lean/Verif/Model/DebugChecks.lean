import Mathlib.Algebra.Field.Rat
import Mathlib.Algebra.Order.Ring.Rat
import Verif.Model.Basic
/-
Model of the checks that "syncdebug" inserts in a built program, `ndsl/dsl/dace/sdfg_debug_passes.py`, and of their use in
`ndsl/dsl/dace/orchestration.py` 309-315.

Simplifications: the dataflow of all states is one graph whose nodes are numbers (edges lie within a state, nodes of different
states are different numbers); the entry, tasklet and exit of an inserted check are one node; the access nodes of a program are
given by the outputs of its maps; a number is a rational or NaN (`none`); the ranges of memlets are numbers; the printed text is not
modelled.
-/
namespace NDSL.DebugChecks

/-- A range of a subset: first, last (included), step. -/
structure Range where
  first : Int
  last : Int
  step : Int
  deriving DecidableEq, Repr

/-- An edge from the exit of a map. -/
structure Out where
  /-- the node the edge leads to -/
  dst : Nat
  /-- `get_parent_map(state, me) is not None` -/
  inside : Bool
  /-- the node is an access node -/
  access : Bool
  /-- the container is a view -/
  view : Bool
  /-- its name -/
  data : List Char
  /-- the container lies in `GPU_Global` or `GPU_Shared` -/
  gpu : Bool
  /-- number of axes of the container -/
  dims : Nat
  /-- the memlet is flagged as dynamic -/
  dynamic : Bool
  /-- the subset written -/
  subset : List Range
  deriving DecidableEq, Repr

/-- What the tasklet tests: `_inp != _inp`, `_inp < limit`, nothing. -/
inductive Cond where
  | nan
  | below (limit : ℚ)
  | always
  deriving DecidableEq

/-- A check in the program: its node, the node it reads, the name, the ranges of its map, the number of indices it uses. -/
structure Check where
  id : Nat
  node : Nat
  data : List Char
  ranges : List Range
  indices : Nat
  cond : Cond
  asserts : Bool
  deriving DecidableEq

/-- The program: nodes are the numbers below `next`. -/
structure Graph where
  next : Nat
  edges : List (Nat × Nat)
  outs : List Out
  checks : List Check
  deriving DecidableEq

/-- `w in s` on strings. -/
def inside (w : List Char) : List Char → Bool
  | [] => w.isEmpty
  | c :: cs => w.isPrefixOf (c :: cs) || inside w cs

/-- `_filter_all_maps`, 14-73. The defaults of both lists are empty. -/
def filterAll (g : Graph) (whitelist blacklist : List (List Char)) (skipDynamic : Bool) : List Out :=
  (g.outs.filter fun o => !o.inside).filter fun o =>
    if !o.access then false
    else if o.view then false
    else if whitelist.all fun w => !inside w o.data then false
    else if blacklist.any fun w => inside w o.data then false
    else if skipDynamic && o.dynamic then false
    else true

/-- The ranges of the map of a check, 143-154. -/
def checkRanges (o : Out) (arrayRange : Option (List Range)) : List Range :=
  match arrayRange with
  | some (r :: rs) => (r :: rs).take o.dims
  | _ => o.subset.take o.dims

/-- `_check_node`, 76-174. The new access node is `g.next`, the check `g.next + 1`. -/
def checkNode (cond : Cond) (asserts : Bool) (arrayRange : Option (List Range)) (g : Graph) (o : Out) : Graph :=
  let new := g.next
  let check := g.next + 1
  -- 110-113
  let moved := g.edges.map fun e => if e.1 = o.dst then (new, e.2) else e
  -- 129-133
  if !o.gpu then { g with next := g.next + 2, edges := moved }
  else
    let ranges := checkRanges o arrayRange
    -- 156-174
    { next := g.next + 2
      edges := moved ++ [(o.dst, check), (check, new)]
      outs := g.outs ++ [{ o with dst := new, inside := false, dynamic := true, subset := ranges }]
      checks := g.checks ++ [⟨check, o.dst, o.data, ranges, o.dims, cond, asserts⟩] }

/-- The loops over the outputs found, with the number that is logged. -/
def insertAll (cond : Cond) (asserts : Bool) (arrayRange : Option (List Range)) (found : List Out) (g : Graph) : Graph × Nat :=
  (found.foldl (checkNode cond asserts arrayRange) g, found.length)

/-- `trace_all_outputs_at_index`, 177-205. -/
def traceAll (i j k : Int) (g : Graph) : Graph × Nat :=
  insertAll .always false (some [⟨i, i, 1⟩, ⟨j, j, 1⟩, ⟨k, k, 1⟩]) (filterAll g [] [] true) g

/-- `negative_delp_checker`, 208-231. -/
def negativeDelp (g : Graph) : Graph × Nat :=
  insertAll (.below 0) true none (filterAll g ["delp".toList] [] false) g

/-- The names of tracers, 241-251. -/
def tracerNames : List (List Char) :=
  ["qvapor".toList, "qliquid".toList, "qrain".toList, "qice".toList, "qsnow".toList, "qgraupel".toList, "qo3mr".toList,
    "qsgs_tke".toList, "qcld".toList]

/-- `negative_qtracers_checker`, 234-267. -/
def negativeTracers (g : Graph) : Graph × Nat :=
  insertAll (.below (-1 / 100000000)) true none (filterAll g tracerNames [] false) g

/-- `sdfg_nan_checker`, 270-305. -/
def nanChecker (iRange jRange kRange : Option Range) (g : Graph) : Except Err (Graph × Nat) :=
  let found := filterAll g [] ["diss_estd".toList] true
  match iRange, jRange, kRange with
  | none, none, none => .ok (insertAll .nan true none found g)
  | some i, some j, some k => .ok (insertAll .nan true (some [i, j, k]) found g)
  | _, _, _ => .error .runtimeError

/-- `sdfg_execution_progress`, 308-321. -/
def executionProgress (g : Graph) : Graph × Nat :=
  insertAll .always false (some [⟨0, 0, 1⟩, ⟨0, 0, 1⟩, ⟨0, 0, 1⟩]) (filterAll g [] [] true) g

/-- What `orchestration.py` 311-315 does when "syncdebug" is on. -/
def syncDebug (g : Graph) : Except Err Graph := do
  let g ← nanChecker none none none g
  pure (negativeTracers (negativeDelp g.1).1).1

/-- The indices of a range of a map. -/
def rangeList (r : Range) : List Int :=
  (List.range (r.last - r.first + 1).toNat).filterMap fun (n : Nat) =>
    if (n : Int) % r.step = 0 then some (r.first + n) else none

/-- The points a map goes through. -/
def points : List Range → List (List Int)
  | [] => [[]]
  | r :: rs => (rangeList r).flatMap fun i => (points rs).map (i :: ·)

/-- The condition in the C code. -/
def Cond.holds : Cond → Option ℚ → Bool
  | .nan, v => v.isNone
  | .below l, some x => decide (x < l)
  | .below _, none => false
  | .always, _ => true

/-- The check prints, and with `asserts` stops the program, when a point of its map has the condition. -/
def Check.fires (c : Check) (value : List Int → Option ℚ) : Bool := (points c.ranges).any fun p => c.cond.holds (value p)

/-- A node on the contents of memory: inserted nodes change nothing. -/
def run {M : Type} (act : Nat → M → M) (order : List Nat) (m : M) : M := order.foldl (fun m i => act i m) m

end NDSL.DebugChecks
