import Verif.Model.Orchestration
/-
Specification for calls to orchestrated programs and for bound methods.
-/
namespace NDSL.Orch

variable {Lib M : Type}

/-- The hash of a call's arguments, if all of them have one. -/
def key (H : List Int → Int) (c : Call) : Option Int :=
  (allHashes H (c.args ++ c.kwargs.map (·.2))).map H

/-- The library of a program. -/
def libOf (W : World Lib M) (mode : Mode) (p : Nat) : Option Lib :=
  match mode with
  | .build => none
  | .buildAndRun => some (W.built p)
  | .run => W.precompiled p

/-- What a heap can go through: new objects at addresses that no live object has, objects that go
away because nothing holds them, and methods that are bound for live objects. -/
inductive Reach : Heap → Prop
  | start : Reach ⟨[], 0, fun _ _ => none⟩
  | new (h : Heap) (i : Nat) : Reach h → (∀ o ∈ h.live, o.id ≠ i) →
      Reach { h with live := ⟨i, h.count⟩ :: h.live, count := h.count + 1 }
  | gone (h : Heap) (o : Obj) : Reach h → ¬ h.holds o →
      Reach { h with live := h.live.filter fun x => decide (x ≠ o) }
  | get (h : Heap) (obj func : Obj) (config : Nat) : Reach h → obj ∈ h.live → func ∈ h.live →
      Reach (h.get obj func config).1

end NDSL.Orch
