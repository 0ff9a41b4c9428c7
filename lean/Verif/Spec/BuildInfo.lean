import Verif.Model.BuildInfo
/-
Specification for the check of the build information.
-/
namespace NDSL.BuildInfo

open NDSL.Backend

/-- Two configurations give the ranks domains of the same size: rows, columns and levels. -/
def SameDomain (c b : Config) : Prop :=
  c.nx * b.layout.1 = b.nx * c.layout.1 ∧ c.nx * b.layout.2 = b.nx * c.layout.2 ∧ c.nz = b.nz

/-- The configuration was constructed: the backend is one that the registry knows. -/
def Made (registry : List Char → Option Bool) (c : Config) : Prop :=
  mk registry c.backend.name = .ok c.backend

/-- The folder after a build with `b` of the program `name`. -/
def Built (fs : Folder) (b : Config) (name : Nat) : Prop := fs b.codePath name = some (writeInfo b)

end NDSL.BuildInfo
