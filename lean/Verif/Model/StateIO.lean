import Verif.Model.StateFiles
import Verif.Model.StateTransfer
/-
Model of `ndsl/io.py`: writing a state dictionary to a file and reading it, and the date in `coupler.res`; with
`Quantity.data_as_xarray`, `attrs`, `from_data_array`, `_resolve_backend` and the check of precision in
`Quantity.__init__` (`ndsl/quantity/quantity.py` 65-73, 147-184, 256-260, 336-343, 521-536).

From xarray and cftime the following is modelled: a dataset refuses variables that disagree about the size of a
dimension, and a dimension with the name of a variable without dimensions (ValueError); a variable whose only dimension
has its name is a coordinate and not among `data_vars`; files hold what was written; opening a file decodes variables
with certain units (those of dates and time spans), whose attribute `units` is then gone. Simplifications: variables
with more dimensions one of which has the variable's name, and the change of the width of integers in the file, are
left out; writing itself does not fail.
-/
namespace NDSL.StateIO
variable {C T : Type}

/-- exceptions -/
inductive IOErr where
  | valueError
  | keyError
  | attributeError
  | fileNotFound
  deriving DecidableEq

/-- `dtype`: a floating point type of so many bits, or another type. -/
inductive DType where
  | float (bits : Nat)
  | other (name : String)
  deriving DecidableEq

/-- A `Quantity`: dimensions with sizes, `units`, `backend`, `origin`, `extent`, type and content of the whole array,
halo included. -/
structure Qty (C : Type) where
  dims : List (String × Nat)
  units : String
  backend : String
  origin : List Int
  extent : List Int
  dtype : DType
  data : C
  deriving DecidableEq

/-- The value of an entry of a state dictionary. -/
inductive Val (C T : Type) where
  | qty (q : Qty C)
  | time (t : T)
  deriving DecidableEq

/-- A state dictionary. -/
abbrev State (C T : Type) := List (String × Val C T)

/-- `xr.DataArray`: of the attributes only `units` and `backend`. -/
structure Var (C : Type) where
  dims : List (String × Nat)
  units : Option String
  backend : Option String
  dtype : DType
  data : C
  deriving DecidableEq

/-- What xarray does with times: `enc` gives the number and units written for a date, `dec` the decoding for units
which are decoded on opening a file, `asTime` the date a decoded content is. -/
structure Coder (C T : Type) where
  enc : T → C × String
  dec : String → Option (C → C)
  asTime : C → Option T

/-- `data_as_xarray`, quantity.py 336-343, with `attrs`, 256-260. -/
def Qty.asXarray (q : Qty C) : Var C := ⟨q.dims, some q.units, some q.backend, q.dtype, q.data⟩

/-- A date as a variable. -/
def timeVar (X : Coder C T) (t : T) : Var C := ⟨[], some (X.enc t).2, none, .other "int64", (X.enc t).1⟩

/-- io.py 24: `value.data_as_xarray`, which a date does not have. -/
def addVar (n : String) (r : Except IOErr (List (String × Var C))) : Val C T → Except IOErr (List (String × Var C))
  | .qty q => r.map ((n, q.asXarray) :: ·)
  | .time _ => .error .attributeError

/-- io.py 23-25: the variables other than `time`. -/
def dataVars : State C T → Except IOErr (List (String × Var C))
  | [] => .ok []
  | (n, v) :: s =>
    if n = "time" then dataVars s
    else addVar n (dataVars s) v

/-- The check of a dataset. -/
def consistent (d : List (String × Var C)) : Bool :=
  StateFiles.sizesAgree (d.flatMap fun e => e.2.dims) &&
    d.all fun e => !e.2.dims.isEmpty || d.all fun f => f.2.dims.all fun k => k.1 != e.1

/-- `to_xarray_dataset`, io.py 22-28. A quantity named `time` is no variable (ValueError). -/
def toDataset (X : Coder C T) (s : State C T) : Except IOErr (List (String × Var C)) :=
  match dataVars s with
  | .error e => .error e
  | .ok d =>
    match dictGet s "time" with
    | none => if consistent d then .ok d else .error .valueError
    | some (.qty _) => .error .valueError
    | some (.time t) =>
      let d := dictSet d "time" (timeVar X t)
      if consistent d then .ok d else .error .valueError

/-- The files: the latest content first. -/
abbrev Files (C : Type) := List (String × List (String × Var C))

/-- `write_state`, io.py 31-42: the files afterwards and the exception, if any. -/
def writeState (X : Coder C T) (s : State C T) (name : String) (fs : Files C) : Files C × Option IOErr :=
  match dictGet s "time" with
  | none => (fs, some .valueError)
  | some _ =>
    match toDataset X s with
    | .error e => (fs, some e)
    | .ok d => ((name, d) :: fs, none)

/-- Decoding on opening. -/
def decode (X : Coder C T) (v : Var C) : Var C :=
  match v.units with
  | none => v
  | some u =>
    match X.dec u with
    | none => v
    | some f => { v with units := none, dtype := .other "object", data := f v.data }

/-- `ds.data_vars`. -/
def isDataVar (e : String × Var C) : Bool := decide (e.2.dims.map (·.1) ≠ [e.1])

/-- `_extract_time`, io.py 45-57. -/
def extractTime (X : Coder C T) (v : Var C) : Except IOErr T :=
  if v.dims.length > 0 then .error .valueError
  else match X.asTime v.data with
    | none => .error .valueError
    | some t => .ok t

/-- `_resolve_backend` without a given backend, quantity.py 521-536. -/
def resolveBackend (known : List String) (default : String) (v : Var C) : Except IOErr String :=
  match v.backend with
  | none => .ok default
  | some b => if b ∈ known then .ok b else .error .valueError

/-- `from_data_array` without `origin` and `extent`, quantity.py 147-184, and 65-73 and 74-83 of `__init__`. -/
def fromDataArray (bits : Nat) (known : List String) (default : String) (v : Var C) : Except IOErr (Qty C) :=
  match resolveBackend known default v with
  | .error e => .error e
  | .ok b =>
    let q : Qty C := ⟨v.dims, v.units.getD "unknown", b, v.dims.map fun _ => 0, v.dims.map fun d => (d.2 : Int),
      v.dtype, v.data⟩
    match v.dtype with
    | .other _ => .ok q
    | .float n => if n = bits then .ok q else .error .valueError

/-- The settings of a session that reads: bits of `Float`, names of backends and that of `Backend.python()`. -/
structure Session where
  bits : Nat
  known : List String
  default : String

/-- 75-77: one entry. -/
def readVar (X : Coder C T) (S : Session) (n : String) (v : Var C) : Except IOErr (Val C T) :=
  if n = "time" then (extractTime X v).map .time else (fromDataArray S.bits S.known S.default v).map .qty

/-- 73-77: the loop over `data_vars`. -/
def readVars (X : Coder C T) (S : Session) : List (String × Var C) → State C T → Except IOErr (State C T)
  | [], out => .ok out
  | (n, v) :: d, out =>
    if isDataVar (n, v) then
      match readVar X S n (decode X v) with
      | .error e => .error e
      | .ok x => readVars X S d (dictSet out n x)
    else readVars X S d out

/-- `read_state`, io.py 60-78. -/
def readState (X : Coder C T) (S : Session) (name : String) (fs : Files C) : Except IOErr (State C T) :=
  match dictGet fs name with
  | none => .error .fileNotFound
  | some d => readVars X S d []

/-- A history of calls of `write_state`. -/
def writes (X : Coder C T) : List (State C T × String) → Files C → Files C
  | [], fs => fs
  | (s, n) :: l, fs => writes X l (writeState X s n fs).1

/-! ### `coupler.res` -/

/-- What `str.split()` splits at. -/
def isSpace (c : Char) : Bool := c = ' ' || c = '\t' || c = '\n' || c = '\r' || c = '\x0b' || c = '\x0c'

/-- `line.split()`; `cur` is the token read so far, reversed. -/
def splitGo : List Char → List Char → List (List Char)
  | [], [] => []
  | c :: cur, [] => [(c :: cur).reverse]
  | [], x :: l => if isSpace x then splitGo [] l else splitGo [x] l
  | c :: cur, x :: l => if isSpace x then (c :: cur).reverse :: splitGo [] l else splitGo (x :: c :: cur) l

def split (l : List Char) : List (List Char) := splitGo [] l

/-- Digits only. -/
def natOf (l : List Char) : Option Nat :=
  if l ≠ [] ∧ l.all Char.isDigit then some (Nat.ofDigitChars 10 l 0) else none

/-- `int(token)`, without underscores in the token. -/
def intOf : List Char → Option Int
  | '-' :: l => (natOf l).map fun n => -(n : Int)
  | '+' :: l => (natOf l).map fun n => (n : Int)
  | l => (natOf l).map fun n => (n : Int)

/-- `file.readline()`: the line with its end, and the rest. -/
def readline : List Char → List Char × List Char
  | [] => ([], [])
  | c :: l => if c = '\n' then ([c], l) else (c :: (readline l).1, (readline l).2)

/-- All of the tokens are numbers. -/
def allInts : List (List Char) → Except IOErr (List Int)
  | [] => .ok []
  | t :: l =>
    match intOf t with
    | none => .error .valueError
    | some n => (allInts l).map (n :: ·)

/-- `_get_integer_tokens`, io.py 81-83. -/
def integerTokens (line : List Char) (n : Nat) : Except IOErr (List Int) := allInts ((split line).take n)

/-- The types of dates, io.py 10-19. -/
inductive Calendar where
  | day360
  | julian
  | gregorian
  | noleap
  deriving DecidableEq, Repr

/-- `FMS_TO_CFTIME_TYPE[...]`, io.py 14-19. -/
def fmsCalendar (n : Int) : Except IOErr Calendar :=
  if n = 1 then .ok .day360
  else if n = 2 then .ok .julian
  else if n = 3 then .ok .gregorian
  else if n = 4 then .ok .noleap
  else .error .keyError

/-- A date: calendar, year, month, day, hour, minute, second. -/
structure Date where
  cal : Calendar
  year : Int
  month : Int
  day : Int
  hour : Int
  minute : Int
  second : Int
  deriving DecidableEq, Repr

/-- The construction of a date, which checks (`valid`) that there is such a date. -/
def mkDate (valid : Date → Bool) (d : Date) : Except IOErr Date := if valid d then .ok d else .error .valueError

/-- io.py 90. -/
def dateOf (valid : Date → Bool) (cal : Int) (ts : List Int) : Except IOErr Date :=
  match ts with
  | [y, mo, d, h, mi, s] =>
    match fmsCalendar cal with
    | .error e => .error e
    | .ok c => mkDate valid ⟨c, y, mo, d, h, mi, s⟩
  | _ => .error .valueError

/-- `get_current_date_from_coupler_res`, io.py 86-90. -/
def currentDate (valid : Date → Bool) (file : List Char) : Except IOErr Date :=
  let r1 := readline file
  match integerTokens r1.1 1 with
  | .error e => .error e
  | .ok [cal] =>
    let r2 := readline r1.2
    let r3 := readline r2.2
    match integerTokens r3.1 6 with
    | .error e => .error e
    | .ok ts => dateOf valid cal ts
  | .ok _ => .error .valueError

end NDSL.StateIO
