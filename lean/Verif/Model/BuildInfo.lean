import Verif.Model.Backend
/-
Model of the build information kept beside a library (`ndsl/dsl/dace/build.py` 22-47 and 56-114) and
of the dictionary form of `DaceConfig` (`ndsl/dsl/dace/dace_config.py` 353-377, 394-415).

Simplifications: `ast.literal_eval` is a reader of decimal numbers; quotients are compared exactly,
by cross multiplication (layouts are positive); the path of an `.sdfg` file given by the user
(75-81) is left out.
-/
namespace NDSL.BuildInfo

open NDSL.Backend

/-- The part of `DaceConfig` that matters here. -/
structure Config where
  mode : Compile.RunMode
  backend : Backend
  rank : Nat
  size : Nat
  layout : Nat × Nat
  nx : Nat
  nz : Nat
  codePath : Compile.CodePath
  doCompile : Bool
  single : Bool
  deriving DecidableEq, Repr

/-- `self.tile_resolution`, `dace_config.py` 353. -/
def Config.resolution (c : Config) : List Nat := [c.nx, c.nx, c.nz]

/-- `str` of a tuple or list of numbers. -/
def showSeq (l r : Char) (ns : List Nat) : List Char :=
  l :: (List.intercalate (chars! ", ") (ns.map (Nat.toDigits 10)) ++ [r])

/-- `write_build_info`, 40-44. -/
def writeInfo (c : Config) : List Char :=
  chars! "#Schema: Backend Layout Resolution per tile" ++ '\n' ::
    (c.backend.name ++ '\n' ::
      (showSeq '(' ')' [c.layout.1, c.layout.2] ++ '\n' :: (showSeq '[' ']' c.resolution ++ ['\n'])))

/-- `ast.literal_eval` of such a text: the numbers in it. -/
def numbers (cur : Option Nat) : List Char → List Nat
  | [] => cur.toList
  | c :: cs =>
    if c.isDigit then numbers (some (10 * cur.getD 0 + (c.toNat - '0'.toNat))) cs
    else cur.toList ++ numbers none cs

/-- The folder of the libraries of a code path: for a program name the content of
`build_info.txt`, `none` if the folder is not there. -/
abbrev Folder := Compile.CodePath → Nat → Option (List Char)

/-- The check of the resolution, 102-110: first elements only. -/
def sameFirst (c : Config) (layout resolution : List Nat) : Bool :=
  match layout, resolution with
  | l :: _, r :: _ => decide (c.nx * l = r * c.layout.1)
  | _, _ => false

/-- `get_sdfg_path`, 56-114: `some` code path and name if the library may be used, `none` if not
asked for. -/
def getSdfgPath (registry : List Char → Option Bool) (c : Config) (fs : Folder) (name : Nat)
    (override : Bool) : Except Err (Option (Compile.CodePath × Nat)) :=
  if override = false ∧ c.mode ≠ .run then .ok none
  else
    match fs c.codePath name with
    | none => .error .runtimeError
    | some text =>
      match split '\n' text with
      | _ :: b :: l :: r :: _ =>
        match mk registry b with
        | .error e => .error e
        | .ok built =>
          if ¬ beq c.backend built then .error .runtimeError
          else if sameFirst c (numbers none l) (numbers none r) then .ok (some (c.codePath, name))
          else .error .runtimeError
      | _ => .error .valueError

/-- `as_dict`, 394-402: orchestration mode, name of the backend, rank, number of ranks, layout,
resolution. -/
structure Dict where
  orchestrate : List Char
  backend : List Char
  rank : Nat
  size : Nat
  layout : Nat × Nat
  resolution : List Nat
  deriving DecidableEq, Repr

def asDict (c : Config) : Dict :=
  ⟨modeName c.mode, c.backend.name, c.rank, c.size, c.layout, c.resolution⟩

/-- `from_dict`, 404-415, with the values of `__init__` without a communicator, 371-375. -/
def fromDict (registry : List Char → Option Bool) (d : Dict) : Except Err Config :=
  match mk registry d.backend with
  | .error e => .error e
  | .ok b =>
    match modeOf d.orchestrate with
    | .error e => .error e
    | .ok m =>
      match d.resolution with
      | [nx, _, nz] => .ok ⟨m, b, d.rank, d.size, d.layout, nx, nz, .all, true, false⟩
      | _ => .error .valueError

end NDSL.BuildInfo
