import Verif.Model.StateTransfer
/-
Model of the splitting of columns by changing parameters, `ndsl/dsl/gt4py_utils.py` 389-417.
-/
namespace NDSL.KSplit

variable {V : Type}

/-- The parameters at a level, 393-396: a dictionary of those whose array reaches the level. All
these dictionaries have their keys in the order of `column_info`, so they are equal as dictionaries
exactly if they are equal as lists. -/
def columnVals (info : List (String × List V)) (k : Nat) : List (String × V) :=
  info.filterMap fun e => (e.2[k]?).map fun v => (e.1, v)

/-- The loop 392-399 from level `k` on, for `n` more levels. -/
def startsFrom [DecidableEq V] (info : List (String × List V)) :
    Nat → Nat → Option (List (String × V)) → List Nat
  | _, 0, _ => []
  | k, n + 1, compare =>
    if some (columnVals info k) ≠ compare then
      k :: startsFrom info (k + 1) n (some (columnVals info k))
    else startsFrom info (k + 1) n compare

/-- The loop 400-402: pairs of start and length. `kstarts[-1]` raises if there is none. -/
def toPairs (npz : Nat) : List Nat → Except Err (List (Nat × Nat))
  | [] => .error .indexError
  | [a] => .ok [(a, npz - a)]
  | a :: b :: l =>
    match toPairs npz (b :: l) with
    | .ok ps => .ok ((a, b - a) :: ps)
    | .error e => .error e

/-- `get_kstarts`, 389-403 -/
def getKstarts [DecidableEq V] (info : List (String × List V)) (npz : Nat) :
    Except Err (List (Nat × Nat)) :=
  toPairs npz (startsFrom info 0 npz none)

/-- An argument of the function that is run: a parameter, a number or anything else. -/
inductive Arg (V : Type) where
  | param (v : V)
  | num (n : Nat)
  | other (n : Nat)
  deriving DecidableEq

/-- The values of the parameters at a level, 408-410; an array that is too short raises. -/
def splitvars (vals : List (String × List V)) (ki : Nat) : Option (List (String × V)) :=
  vals.mapM fun e => (e.2[ki]?).map fun v => (e.1, v)

/-- `data.update(splitvars)`, `data["kstart"] = ki`, `data["nk"] = nk`, 411-413 -/
def updateData (data : List (String × Arg V)) (sv : List (String × V)) (ki nk : Nat) :
    List (String × Arg V) :=
  dictSet (dictSet (sv.foldl (fun d e => dictSet d e.1 (.param e.2)) data) "kstart" (.num ki))
    "nk" (.num nk)

/-- `k_split_run`, 406-417: the arguments of the calls made, and the error, if any. -/
def kSplitRun (vals : List (String × List V)) :
    List (String × Arg V) → List (Nat × Nat) → List (List (String × Arg V)) × Option Err
  | _, [] => ([], none)
  | data, (ki, nk) :: ks =>
    match splitvars vals ki with
    | none => ([], some .indexError)
    | some sv =>
      let data := updateData data sv ki nk
      let r := kSplitRun vals data ks
      (data :: r.1, r.2)

end NDSL.KSplit
