import Verif.Model.Backend
/-
Model of `ndsl/debug/debugger.py` and of the calls made to it around stencils
(`ndsl/dsl/stencil.py` 446-482) and instrumented functions (`ndsl/debug/tooling.py` 9-46): which
files are written. Names are lists of characters. The content of the files is not modelled; a
file that fails to be written (logged) counts as written. The dictionaries of counts are functions,
zero where there is no entry.
-/
namespace NDSL.Dbg

abbrev Name := List Char

/-- The configuration, 20-25, and the rank. `saved` is the test of line 83. -/
structure Config where
  dir : List Char
  rank : List Char
  saved : Name → Bool
  tracked : Name → Bool

/-- The runtime data, 28-31, and the files written so far, the last one last. -/
structure St where
  step : Nat
  calls : Name → Nat
  tracks : Name → Nat
  files : List (List Char)

/-- A new debugger. -/
def St.new : St := ⟨0, fun _ => 0, fun _ => 0, []⟩

/-- `{self.step:06d}` -/
def pad6 (n : Nat) : List Char :=
  List.replicate (6 - (Nat.toDigits 10 n).length) '0' ++ Nat.toDigits 10 n

/-- `'In' if is_in else 'Out'` and the extension -/
def ending (isIn : Bool) : List Char := if isIn then chars! "In.nc4" else chars! "Out.nc4"

/-- The path of 101-105. -/
def savePath (cfg : Config) (step : Nat) (name : Name) (count : Nat) (isIn : Bool) : List Char :=
  cfg.dir ++ (chars! "/debug/savepoints/R" ++ (cfg.rank ++ (chars! "/S" ++ (pad6 step ++
    ('_' :: (name ++ ('-' :: (chars! "Call" ++ (Nat.toDigits 10 count ++
      ('-' :: ending isIn))))))))))

/-- The path of 64-68. -/
def trackPath (cfg : Config) (count : Nat) (param source : Name) (isIn : Bool) : List Char :=
  cfg.dir ++ (chars! "/debug/tracks/" ++ (param ++ ('/' :: (chars! "R" ++ (cfg.rank ++
    ('/' :: (Nat.toDigits 10 count ++ ('_' :: (param ++ ('_' :: (source ++
      ('-' :: ending isIn))))))))))))

/-- `save_as_dataset`, 78-111. -/
def St.save (s : St) (cfg : Config) (name : Name) (isIn : Bool) : St :=
  if cfg.saved name then
    { s with
      files := s.files ++ [savePath cfg s.step name (s.calls name) isIn]
      step := if isIn then s.step else s.step + 1 }
  else s

/-- One parameter of `track_data`, 57-76. -/
def St.trackOne (s : St) (cfg : Config) (source : Name) (isIn : Bool) (param : Name) : St :=
  if cfg.tracked param then
    { s with
      files := s.files ++ [trackPath cfg (s.tracks param) param source isIn]
      tracks := fun p => if p = param then s.tracks param + 1 else s.tracks p }
  else s

/-- `track_data`, 55-76. -/
def St.track (s : St) (cfg : Config) (params : List Name) (source : Name) (isIn : Bool) : St :=
  params.foldl (fun s p => s.trackOne cfg source isIn p) s

/-- `increment_call_count`, 113-117. -/
def St.increment (s : St) (name : Name) : St :=
  { s with calls := fun n => if n = name then s.calls name + 1 else s.calls n }

/-- Calls of stencils and instrumented functions: one after the other, and the calls made within. -/
inductive Calls where
  | done
  | call (name : Name) (params : List Name) (inner : Calls) (rest : Calls)

/-- What the debugger does in a run, `ndsl/dsl/stencil.py` 446-482, `ndsl/debug/tooling.py` 36-43. -/
def St.run (s : St) (cfg : Config) : Calls → St
  | .done => s
  | .call name params inner rest =>
    let s := (s.save cfg name true).track cfg params name true
    let s := s.run cfg inner
    let s := (s.save cfg name false).track cfg params name false
    (s.increment name).run cfg rest

end NDSL.Dbg
