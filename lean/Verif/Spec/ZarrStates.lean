import Verif.Model.ZarrStates
/-
Specification for C115: states that can be stored one after another, and what a reader finds of a constant.
-/
namespace NDSL.ZarrStates

/-- The states have the same names, distinct, none of them "time"; each name always the same metadata; and a date of one
calendar. -/
structure Agree {M V : Type} (names : List String) (md : String → M) (c : String) (s : State M V) : Prop where
  keys : s.fields.map (·.1) |>.Perm names
  nodup : names.Nodup
  notTime : "time" ∉ names
  metas : ∀ n m v, (n, (m, v)) ∈ s.fields → m = md n
  time : ∃ t, s.time = some (.date c t)

/-- The value of a constant that a reader finds. -/
def Disk.constant {V : Type} (d : Disk V) (n : String) : Option V :=
  (dictGet d.files (constantFile n)).bind fun ds => dictGet ds n

end NDSL.ZarrStates
