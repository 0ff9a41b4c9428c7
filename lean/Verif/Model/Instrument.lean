/-!
# The decorator that shows a method to the debugger

`instrument`, `ndsl/debug/tooling.py` 9-46.  Values are opaque: the dictionary holds references, so what is saved after the call
is what the call made of them.  Simplification: the order of a dictionary is not kept; what the debugger does with it is C64.
-/
namespace NDSL.Instrument

variable {V R E : Type}

/-- `inspect.Parameter.kind`. -/
inductive Kind where
  | positionalOnly | positionalOrKeyword | varPositional | keywordOnly | varKeyword
  deriving DecidableEq

/-- Kinds of the test of lines 22-25. -/
def Kind.positional : Kind → Bool
  | .positionalOnly | .positionalOrKeyword => true
  | _ => false

/-- An entry of `inspect.signature(func).parameters`. -/
structure Param where
  name : String
  kind : Kind

/-- A dictionary. -/
abbrev Dict (V : Type) := String → Option V

/-- `d[name] = v`. -/
def Dict.set (d : Dict V) (name : String) (v : V) : Dict V := fun n => if n = name then some v else d n

/-- The loop over the parameters, lines 20-31; `count` is `positional_count`. -/
def positionals (args : List V) : List Param → Nat → Dict V → Dict V
  | [], _, d => d
  | p :: ps, count, d =>
    if p.kind.positional then
      if count = 0 then positionals args ps (count + 1) d
      else if count < args.length + 1 then
        match args[count - 1]? with
        | some v => positionals args ps (count + 1) (d.set p.name v)
        | none => positionals args ps (count + 1) d
      else positionals args ps count d
    else positionals args ps count d

/-- The loop over the keyword arguments, lines 33-35. -/
def keywords (params : List Param) (kwargs : List (String × V)) (d : Dict V) : Dict V :=
  kwargs.foldl (fun d a => if params.any (fun p => p.name == a.1) then d.set a.1 a.2 else d) d

/-- `data_as_dict` when the method is called, lines 16-35. -/
def dataOf (params : List Param) (args : List V) (kwargs : List (String × V)) : Dict V :=
  keywords params kwargs (positionals args params 0 fun _ => none)

/-- What happens, in order. -/
inductive Event (V : Type) where
  | save (data : Dict V) (name : String) (isIn : Bool)
  | track (data : Dict V) (name : String) (isIn : Bool)
  | call (args : List V) (kwargs : List (String × V))
  | count (name : String)

/-- `wrapper`, lines 11-45; `debugger` is whether there is one; `args` are the arguments after `self`. -/
def wrapper (debugger : Bool) (qualname : String) (params : List Param) (func : List V → List (String × V) → Except E R)
    (args : List V) (kwargs : List (String × V)) : List (Event V) × Except E R :=
  if !debugger then ([.call args kwargs], func args kwargs)
  else
    let data := dataOf params args kwargs
    let before : List (Event V) := [.save data qualname true, .track data qualname true, .call args kwargs]
    match func args kwargs with
    | .error e => (before, .error e)
    | .ok r => (before ++ [.save data qualname false, .track data qualname false, .count qualname], .ok r)

end NDSL.Instrument
