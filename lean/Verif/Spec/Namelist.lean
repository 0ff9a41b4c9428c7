import Verif.Model.Namelist
/-
Vocabulary for C60: the settings of a namelist, whatever group they are in.
-/
namespace NDSL.Nml

/-- All settings, in order. -/
def settings {V : Type} : Namelist V → List (String × V)
  | .nil => []
  | .setting n v rest => (n, v) :: settings rest
  | .group _ sub rest => settings sub ++ settings rest

/-- A plain namelist, as in a Fortran file without derived types: groups of settings. -/
def ofGroups {V : Type} : List (String × List (String × V)) → Namelist V
  | [] => .nil
  | (n, g) :: rest => .group n (g.foldr (fun (k, v) acc => .setting k v acc) .nil) (ofGroups rest)

end NDSL.Nml
