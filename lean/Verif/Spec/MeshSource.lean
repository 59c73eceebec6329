import Verif.Spec.Lifecycle

/-!
# Specification: where the mesh of an object comes from

Documented order of precedence: a mesh in PFLOTRAN format named on the command line, else a mesh
the object already has, else a mesh file named on the command line, else the constructor the
user registered last, else a Fortran constructor, else PETSc's default.
-/

namespace TDy.Spec

/-- The constructor of the last successful `TDySetDMConstructor` of a history. -/
def lastConstructor : History → Option Nat
  | [] => none
  | (.setDMConstructor id, .success) :: h => (lastConstructor h).or (some id)
  | _ :: h => lastConstructor h

/-- The source of a new mesh. -/
def newMesh (c : CmdLine) (user : Option Nat) (fortran : Bool) : DmSource :=
  if c.readPflotranMesh then .pflotran
  else if c.readMesh then .meshFile
  else match user, fortran with
    | some id, _ => .userFn id
    | none, true => .fortranFn
    | none, false => .default

end TDy.Spec
