import Verif.Model.Restart
/-
Vocabulary for C62: which standard name a restart name stands for.
-/
namespace NDSL.Restart

/-- `s` is the last standard name listed for the restart name `r`. -/
def Stands (props : List (String × Props)) (r s : String) : Prop :=
  ∃ before p after, props = before ++ (s, p) :: after ∧ p.restartName = r ∧
    ∀ e ∈ after, e.2.restartName ≠ r

/-- `r` is a name of the table. -/
def Known (props : List (String × Props)) (r : String) : Prop :=
  ∃ e ∈ props, e.2.restartName = r

/-- The names of a file. -/
def names {V : Type} (file : List (String × V)) : List String := file.map (·.1)

/-- No variable that is not in the table is called like a standard name that the file provides
under its restart name. -/
def NoClash {V : Type} (props : List (String × Props)) (file : List (String × V)) : Prop :=
  ∀ r s, Stands props r s → r ∈ names file → s ∈ names file → Known props s

end NDSL.Restart
