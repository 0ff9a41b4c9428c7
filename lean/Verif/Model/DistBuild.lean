import Verif.Model.Compile
/-
Model of the distributed build of orchestrated programs in build-and-run mode
(`ndsl/dsl/dace/orchestration.py` `_build_sdfg` 215-369, `ndsl/dsl/dace/build.py` 26-47 and 56-114).

A rank, at its first call of a program, builds the library if it is a compiling rank, waits at a
barrier of all ranks, and loads the library of its own code path. Ranks run at their own speed.

Simplifications: building is two steps, the library being unusable in between; a library is
identified by the code path and the name of the program, and stands for the place (the folder
`.gt_cache_<path>/dacecache/<name>`); later calls of a program do not reach this code
(`C88`), so only first calls are in the list of a rank. The check of the build information is in
`Model/BuildInfo`.
-/
namespace NDSL.Dist

/-- What all ranks are about to do. `progs` are program objects, in the order in which a rank first
calls them; `name` is `dace_program.name`; `version` is the library that a build of the program for a
code path makes. -/
structure Job (P : Type) where
  ranks : Nat
  path : Nat → P
  compiles : Nat → Bool
  progs : Nat → List Nat
  name : Nat → Nat
  version : P → Nat → Nat

inductive Phase where
  | start | compiling | ready | waiting | load
  deriving DecidableEq, Repr

/-- A rank: programs still to be called for the first time, the place in the code for the first of
them, the number of barriers entered, the libraries loaded (`none`: no usable library was there). -/
structure Rank where
  todo : List Nat
  phase : Phase := .start
  entered : Nat := 0
  loaded : List (Nat × Option Nat) := []
  alive : Bool := true
  deriving DecidableEq, Repr

/-- All ranks and the libraries on the shared file system. -/
structure St (P : Type) where
  rank : Nat → Rank
  files : P → Nat → Option Nat

variable {P : Type} [DecidableEq P]

def St.put (s : St P) (r : Nat) (x : Rank) : St P :=
  { s with rank := fun q => if q = r then x else s.rank q }

def St.write (s : St P) (path : P) (name : Nat) (v : Option Nat) : St P :=
  { s with files := fun p n => if p = path ∧ n = name then v else s.files p n }

/-- Before the first call; libraries of earlier runs may be there. -/
def Job.init (J : Job P) (files : P → Nat → Option Nat) : St P :=
  ⟨fun r => { todo := J.progs r }, files⟩

/-- `MPI.COMM_WORLD.Barrier()`: a rank gets through its k-th barrier when all have entered theirs. -/
def Job.open (J : Job P) (s : St P) (r : Nat) : Bool :=
  (List.range J.ranks).all fun q => decide ((s.rank r).entered ≤ (s.rank q).entered)

/-- One step of a rank in `_build_sdfg`: 224-331 (building, compiling ranks only), 356 (barrier),
358-369 (loading). `none` if the rank cannot move. -/
def Job.move (J : Job P) (s : St P) (r : Nat) : Option (St P) :=
  let x := s.rank r
  match x.alive, x.todo, x.phase with
  | false, _, _ => none
  | true, [], _ => none
  | true, p :: _, .start =>
    if J.compiles r then
      some ((s.write (J.path r) (J.name p) none).put r { x with phase := .compiling })
    else some (s.put r { x with phase := .ready })
  | true, p :: _, .compiling =>
    some ((s.write (J.path r) (J.name p) (some (J.version (J.path r) p))).put r
      { x with phase := .ready })
  | true, _ :: _, .ready => some (s.put r { x with phase := .waiting, entered := x.entered + 1 })
  | true, _ :: _, .waiting => if J.open s r then some (s.put r { x with phase := .load }) else none
  | true, p :: rest, .load =>
    some (s.put r { x with phase := .start, todo := rest,
                           loaded := x.loaded ++ [(p, s.files (J.path r) (J.name p))] })

/-- What happens next: a rank moves, or a rank ends (an exception in the build, say). -/
inductive Ev where
  | move (r : Nat)
  | crash (r : Nat)
  deriving DecidableEq, Repr

def Job.event (J : Job P) (s : St P) : Ev → Option (St P)
  | .move r => J.move s r
  | .crash r => some (s.put r { s.rank r with alive := false })

def Job.run (J : Job P) : List Ev → St P → Option (St P)
  | [], s => some s
  | e :: es, s => (J.event s e).bind fun s => J.run es s

/-- The job of a partitioner: code paths and compiling ranks as in `DaceConfig.__init__`,
`dace_config.py` 356-369. -/
def ofPart (p : Compile.Part) (single : Bool) (progs : List Nat) (name : Nat → Nat)
    (version : Option Compile.CodePath → Nat → Nat) : Job (Option Compile.CodePath) where
  ranks := p.totalRanks.toNat
  path r := (Compile.identifyCodePath r p single).toOption
  compiles r := (Compile.determineCompilingRank r p single).toOption = some true
  progs _ := progs
  name := name
  version := version

end NDSL.Dist
