import Verif.Model.StateTransfer
/-
Model of `ndsl/performance/timer.py`. Clock readings are arguments of the operations; they are of an
arbitrary type with addition and subtraction. Warnings and the synchronisation of GPUs are not
modelled.
-/
namespace NDSL.Timing

variable {T : Type}

/-- `Timer.__init__`, 12-19 -/
structure Timer (T : Type) where
  starts : List (String × T)
  times : List (String × T)
  hits : List (String × Nat)
  enabled : Bool
  deriving DecidableEq

def Timer.new (enabled : Bool) : Timer T := ⟨[], [], [], enabled⟩

/-- `dict.pop(name)`: the remaining entries -/
def dictDel {V : Type} (d : List (String × V)) (k : String) : List (String × V) :=
  d.filter fun e => decide (e.1 ≠ k)

/-- `start`, 21-32 -/
def Timer.start (τ : Timer T) (name : String) (now : T) : Timer T × Option Err :=
  if τ.enabled = false then (τ, none)
  else match dictGet τ.starts name with
    | some _ => (τ, some .valueError)
    | none => ({ τ with starts := dictSet τ.starts name now }, none)

/-- `stop`, 34-53; `pop` raises before anything is assigned. -/
def Timer.stop [Add T] [Sub T] (τ : Timer T) (name : String) (now : T) : Timer T × Option Err :=
  if τ.enabled = false then (τ, none)
  else match dictGet τ.starts name with
    | none => (τ, some .keyError)
    | some t0 =>
      let times := match dictGet τ.times name with
        | none => dictSet τ.times name (now - t0)
        | some acc => dictSet τ.times name (acc + (now - t0))
      let hits := match dictGet τ.hits name with
        | none => dictSet τ.hits name 1
        | some h => dictSet τ.hits name (h + 1)
      ({ τ with starts := dictDel τ.starts name, times := times, hits := hits }, none)

/-- `reset`, 125-128 -/
def Timer.reset (τ : Timer T) : Timer T × Option Err := ({ τ with times := [], hits := [] }, none)

/-- `enable`, 130-132 -/
def Timer.enable (τ : Timer T) : Timer T × Option Err := ({ τ with enabled := true }, none)

/-- `disable`, 134-141 -/
def Timer.disable (τ : Timer T) : Timer T × Option Err :=
  if τ.starts.length > 0 then (τ, some .runtimeError) else ({ τ with enabled := false }, none)

inductive Op (T : Type) where
  | start (name : String) (now : T)
  | stop (name : String) (now : T)
  | reset
  | enable
  | disable

def Timer.step [Add T] [Sub T] (τ : Timer T) : Op T → Timer T × Option Err
  | .start n t => τ.start n t
  | .stop n t => τ.stop n t
  | .reset => τ.reset
  | .enable => τ.enable
  | .disable => τ.disable

/-- A history of calls; the caller goes on after exceptions. -/
def Timer.run [Add T] [Sub T] (τ : Timer T) (ops : List (Op T)) : Timer T :=
  ops.foldl (fun τ o => (τ.step o).1) τ

/-- `with timer.clock(name): body`, 55-95: `__exit__` stops the clock also if the body raises. The
error is that of `start`, else that of `stop`, else that of the body. -/
def Timer.clock [Add T] [Sub T] (τ : Timer T) (name : String) (t0 t1 : T)
    (body : Timer T → Timer T × Option Err) : Timer T × Option Err :=
  match τ.start name t0 with
  | (τ, some e) => (τ, some e)
  | (τ, none) =>
    let b := body τ
    match b.1.stop name t1 with
    | (τ, some e) => (τ, some e)
    | (τ, none) => (τ, b.2)

/-- `NullTimer.enable`, 158-162, and the other operations. -/
def nullStep [Add T] [Sub T] (τ : Timer T) : Op T → Timer T × Option Err
  | .enable => (τ, some .notImplemented)
  | o => τ.step o

end NDSL.Timing
