import Verif.Model.StateTransfer

/-
Model of `FieldBundle` (`ndsl/quantity/field_bundle.py` 18-104) and of the registry of bundle types (151-200).

A view is identified by the bundle's storage and the index along the last axis. Not modelled: whether GT4Py's
layout test makes the constructor of the view copy the data (`quantity.py` 109-123), names that are ordinary
attributes of a bundle (`name`, `shape`, ...; Python then does not call `__getattr__`), a mapping dictionary
shared by two bundles, floating-point precision of the storage.
-/
namespace NDSL.Bundle

/-- a view: a storage and an index along its last axis -/
structure View where
  storage : Nat
  index : Int
  deriving DecidableEq

/-- a bundle: storage, length of the last axis, mapping of names, 49-57 -/
structure Bundle where
  storage : Nat
  length : Nat
  indexer : List (String × Int)

/-- all bundles, and `_per_name_view`, 28: an attribute of the class, that is one dictionary for all bundles -/
structure World where
  bundles : List Bundle
  views : List (String × View)

inductive Op where
  /-- `FieldBundle(name, quantity, mapping)`, 31-61 -/
  | create (storage length : Nat) (mapping : List (String × Int))
  /-- `bundle.map(index, name)`, 63-65 -/
  | map (b : Nat) (index : Int) (name : String)
  /-- `bundle.name`, 79-100 -/
  | get (b : Nat) (name : String)

/-- the index used by numpy for an axis of length `n`; `none`: `IndexError` -/
def wrapIndex (n : Nat) (i : Int) : Option Int :=
  if 0 ≤ i then (if i < n then some i else none) else if -n ≤ i then some (i + n) else none

/-- `__getattr__`, 79-100: the view returned, `ok none` for Python's `None` -/
def getView (w : World) (b : Nat) (name : String) : World × Except Err (Option View) :=
  match w.bundles[b]? with
  | none => (w, .ok none)
  | some bd =>
    match dictGet bd.indexer name with
    | none => (w, .ok none)
    | some i =>
      match dictGet w.views name with
      | some v => (w, .ok (some v))
      | none =>
        match wrapIndex bd.length i with
        | none => (w, .error .indexError)
        | some j => ({ w with views := dictSet w.views name ⟨bd.storage, j⟩ }, .ok (some ⟨bd.storage, j⟩))

def setIndexer (b : Bundle) (name : String) (i : Int) : Bundle := { b with indexer := dictSet b.indexer name i }

def step (w : World) : Op → World
  | .create s n m => { w with bundles := w.bundles ++ [⟨s, n, m⟩] }
  | .map b i name =>
    match w.bundles[b]? with
    | none => w
    | some bd => { w with bundles := w.bundles.set b (setIndexer bd name i) }
  | .get b name => (getView w b name).1

def run (h : List Op) : World := h.foldl step ⟨[], []⟩

/-! ### the registry of types -/

/-- `FieldBundleType.register`, 161-179: the registry maps names to the sizes of the data dimensions -/
def register (r : List (String × List Int)) (name : String) (dims : List Int) :
    List (String × List Int) × Except Err (List Int) :=
  match dictGet r name with
  | some _ => (r, .error .runtimeError)
  | none => (dictSet r name dims, .ok dims)

/-- what `T` returns, 181-200: a registered type or a markup to be resolved later -/
inductive TRes where
  | type (dims : List Int)
  | markup (name : String)
  deriving DecidableEq

def typeOf (r : List (String × List Int)) (name : String) (doMarkup : Bool) : Except Err TRes :=
  match dictGet r name with
  | some d => .ok (.type d)
  | none => if doMarkup then .ok (.markup name) else .error .runtimeError

end NDSL.Bundle
