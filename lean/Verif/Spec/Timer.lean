import Verif.Model.Timer
/-
Specification of the timer: a log of what was measured, newest first.
-/
namespace NDSL.Timing

variable {T : Type}

inductive Ev (T : Type) where
  | began (name : String) (t : T)
  | ended (name : String) (t : T)
  | reset

/-- The clock of a name is running if the last thing that happened to it is that it began. -/
def running (name : String) : List (Ev T) → Bool
  | [] => false
  | .began n _ :: h => if n = name then true else running name h
  | .ended n _ :: h => if n = name then false else running name h
  | .reset :: h => running name h

/-- The last time the clock of a name began. -/
def lastBegan (name : String) : List (Ev T) → Option T
  | [] => none
  | .began n t :: h => if n = name then some t else lastBegan name h
  | _ :: h => lastBegan name h

/-- The durations of the intervals of a name that ended since the last reset, oldest first. -/
def durations [Sub T] (name : String) : List (Ev T) → List T
  | [] => []
  | .reset :: _ => []
  | .began _ _ :: h => durations name h
  | .ended n t :: h =>
    if n = name then
      match lastBegan name h with
      | some t0 => durations name h ++ [t - t0]
      | none => durations name h
    else durations name h

/-- The sum of a non-empty list, added up from the left; nothing for the empty list. -/
def total [Add T] : List T → Option T
  | [] => none
  | d :: ds => some (ds.foldl (· + ·) d)

/-- Whether an operation is a misuse, in a timer with the given log and flag: starting a clock that
runs, stopping one that does not, disabling while one runs. -/
inductive Misuse (log : List (Ev T)) : Bool → Op T → Err → Prop
  | start (n : String) (t : T) : running n log = true → Misuse log true (.start n t) .valueError
  | stop (n : String) (t : T) : running n log = false → Misuse log true (.stop n t) .keyError
  | disable (b : Bool) (n : String) : running n log = true → Misuse log b .disable .runtimeError

/-- What an operation that is no misuse does to the log and the flag. -/
def effect (log : List (Ev T)) (enabled : Bool) : Op T → List (Ev T) × Bool
  | .start n t => (if enabled then .began n t :: log else log, enabled)
  | .stop n t => (if enabled then .ended n t :: log else log, enabled)
  | .reset => (.reset :: log, enabled)
  | .enable => (log, true)
  | .disable => (log, false)

/-- A history of operations on a timer, and the log it leads to. -/
inductive Logs (e0 : Bool) : List (Op T) → List (Ev T) → Bool → Prop
  | nil : Logs e0 [] [] e0
  | ok (ops : List (Op T)) (log : List (Ev T)) (b : Bool) (o : Op T) : Logs e0 ops log b →
      (∀ e, ¬ Misuse log b o e) →
      Logs e0 (ops ++ [o]) (effect log b o).1 (effect log b o).2
  | misuse (ops : List (Op T)) (log : List (Ev T)) (b : Bool) (o : Op T) (e : Err) :
      Logs e0 ops log b → Misuse log b o e → Logs e0 (ops ++ [o]) log b

end NDSL.Timing
