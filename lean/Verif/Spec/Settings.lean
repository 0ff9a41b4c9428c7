import Verif.Model.Settings
/-
What the names in the environment mean.
-/
namespace NDSL.Settings.Spec

/-- The names of the sets of constants. -/
inductive NamesVersion : Text → Version → Prop
  | gfdl : NamesVersion (chars! "GFDL") .gfdl
  | ufs : NamesVersion (chars! "UFS") .ufs
  | geos : NamesVersion (chars! "GEOS") .geos

/-- The names of the levels of messages, in small letters. -/
inductive LevelName : Text → Level → Prop
  | debug : LevelName (chars! "debug") .debug
  | info : LevelName (chars! "info") .info
  | warning : LevelName (chars! "warning") .warning
  | error : LevelName (chars! "error") .error
  | critical : LevelName (chars! "critical") .critical

/-- A text is a name up to the case of its letters. -/
inductive SameLetters : Text → Text → Prop
  | nil : SameLetters [] []
  | small (c : Char) {s t : Text} : SameLetters s t → SameLetters (c :: s) (c :: t)
  | capital (c : Char) {s t : Text} : SameLetters s t → SameLetters (c.toUpper :: s) (c :: t)

/-- A text names a level. -/
def NamesLevel (t : Text) (l : Level) : Prop := ∃ n, LevelName n l ∧ SameLetters t n

/-- The names of the modes of orchestration. -/
inductive NamesMode : Text → Boilerplate.Mode → Prop
  | buildAndRun : NamesMode (chars! "BuildAndRun") .buildAndRun
  | build : NamesMode (chars! "Build") .build
  | run : NamesMode (chars! "Run") .run

/-- The options of the debugger that a configuration may give, where they are found, and their defaults. -/
def options : List (Text × (Debugger → Val) × Val) :=
  [(chars! "stencils_or_class", Debugger.stencils, .texts []),
   (chars! "track_parameter_by_name", Debugger.track, .texts []),
   (chars! "save_compute_domain_only", Debugger.computeOnly, .flag false),
   (chars! "dir_name", Debugger.dirName, .text (chars! "./")),
   (chars! "save_all_stencils", Debugger.saveAll, .flag false),
   (chars! "step", Debugger.step, .number 0),
   (chars! "calls_count", Debugger.calls, .counts []),
   (chars! "track_parameter_count", Debugger.tracked, .counts [])]

/-- The order of the levels. -/
def order : List Level := [.debug, .info, .warning, .error, .critical]

/-- `a` is at most as serious as `b`. -/
def AtMost (a b : Level) : Prop := ∃ i j : Nat, i ≤ j ∧ order[i]? = some a ∧ order[j]? = some b

end NDSL.Settings.Spec
