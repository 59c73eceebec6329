import Verif.Basic
import Verif.Loop
import Verif.Model.Lifecycle

/-!
# Model of the layouts of solution vectors

src/fv/mpfao/tdympfao.c 765-872, src/fv/fvtpf/tdyfvtpf.c 92-154: `SetFields` and the fields of each mode;
src/fe/tdywy.c 514-530, src/fe/tdybdm.c 155-180: the sections of the finite element methods;
src/tdycore.c 758-787: the section of the diagnostic fields.

`PetscSection` is a table of numbers of values, by point and field.  `PetscSectionSetUp` turns it into
offsets: points in the order of the chart, within a point the fields in order.  This behaviour of PETSc
is assumed; the offsets of one process are modelled.
-/

namespace TDy.Sections

/-- A `PetscSection`: the chart `[pStart,pEnd)`, names and components of the fields, and what
`PetscSectionSetFieldDof` and `PetscSectionSetDof` record. -/
structure Section where
  pStart : Nat
  pEnd : Nat
  nFields : Nat
  name : Nat → String
  comps : Nat → Nat
  fdof : Nat → Nat → Nat
  dof : Nat → Nat

/-- PetscSectionCreate -/
def Section.create : Section := ⟨0, 0, 0, fun _ => "", fun _ => 0, fun _ _ => 0, fun _ => 0⟩

/-- PetscSectionSetFieldDof -/
def Section.setFieldDof (s : Section) (p f n : Nat) : Section := { s with fdof := wr s.fdof p (wr (s.fdof p) f n) }

/-- PetscSectionSetDof -/
def Section.setDof (s : Section) (p n : Nat) : Section := { s with dof := wr s.dof p n }

/-- PetscSectionSetUp: the offset of a point is the number of values of the points before it. -/
def Section.offset (s : Section) (p : Nat) : Nat :=
  forN (p - s.pStart) (fun i a => a + s.dof (s.pStart + i)) 0

/-- PetscSectionSetUp: the offset of a field at a point. -/
def Section.fieldOffset (s : Section) (p f : Nat) : Nat :=
  s.offset p + forN f (fun g a => a + s.fdof p g) 0

/-- PetscSectionGetStorageSize: the length of a vector of this layout. -/
def Section.size (s : Section) : Nat := s.offset s.pEnd

/-- A mesh: the points `[0,pEnd)`, of which `[cStart,cEnd)` are cells and `[fStart,fEnd)` faces. -/
structure Points where
  dim : Nat
  pEnd : Nat
  cStart : Nat
  cEnd : Nat
  fStart : Nat
  fEnd : Nat

/-- SetFields (src/fv/mpfao/tdympfao.c:767-811, src/fv/fvtpf/tdyfvtpf.c:94-138): the same text twice. -/
def setFields (m : Points) (numFields : Nat) (names : Nat → String) (numDof : Nat → Nat) : Section :=
  let s := { Section.create with nFields := numFields }
  let (s, total) := forN numFields (fun f (r : Section × Nat) =>
    ({ r.1 with name := wr r.1.name f (names f), comps := wr r.1.comps f (numDof f) }, r.2 + numDof f)) (s, 0)
  let s := { s with pStart := m.cStart, pEnd := m.cEnd }
  forN (m.cEnd - m.cStart) (fun i s =>
    (forN numFields (fun f s => s.setFieldDof (m.cStart + i) f (numDof f)) s).setDof (m.cStart + i) total) s

/-- TDySetDMFields_Richards_MPFAO, _Richards_MPFAO_DAE, _TH_MPFAO, _Salinity_MPFAO
(src/fv/mpfao/tdympfao.c:837-872), TDySetDMFields_Richards_FVTPF (src/fv/fvtpf/tdyfvtpf.c:146-154): the
names of the fields, each with one value per cell. -/
def fieldNames : Fn → List String
  | ⟨.mpfao, .richards⟩ => ["LiquidPressure"]
  | ⟨.mpfao, .richardsDae⟩ => ["LiquidPressure", "LiquidMass"]
  | ⟨.mpfao, .th⟩ => ["LiquidPressure", "LiquidTemperature"]
  | ⟨.mpfao, .salinity⟩ => ["LiquidPressure", "SalineConcentration"]
  | ⟨.fvtpf, .richards⟩ => ["LiquidPressure"]
  | _ => []

/-- The layout of the finite volume methods. -/
def fvSection (f : Fn) (m : Points) : Section :=
  setFields m (fieldNames f).length (fun i => (fieldNames f).getD i "") (fun _ => 1)

/-- TDySetup_WY (src/fe/tdywy.c:514-527) -/
def wySection (m : Points) : Section :=
  let s := { Section.create with nFields := 1, name := wr (fun _ => "") 0 "Pressure", comps := wr (fun _ => 0) 0 1 }
  let s := { s with pStart := 0, pEnd := m.pEnd }
  forN (m.cEnd - m.cStart) (fun i s => (s.setFieldDof (m.cStart + i) 0 1).setDof (m.cStart + i) 1) s

/-- TDySetup_BDM (src/fe/tdybdm.c:155-178) -/
def bdmSection (m : Points) : Section :=
  let s := { Section.create with
    nFields := 2, name := wr (wr (fun _ => "") 0 "Pressure") 1 "Velocity", comps := wr (wr (fun _ => 0) 0 1) 1 1 }
  let s := { s with pStart := 0, pEnd := m.pEnd }
  let s := forN (m.cEnd - m.cStart) (fun i s => (s.setFieldDof (m.cStart + i) 0 1).setDof (m.cStart + i) 1) s
  let dofsPerFace := forN (m.dim - 1) (fun _ n => n*2) 1
  forN (m.fEnd - m.fStart) (fun i s =>
    (s.setFieldDof (m.fStart + i) 1 dofsPerFace).setDof (m.fStart + i) dofsPerFace) s

/-- TDySetup (src/tdycore.c:762-784) and DMPlexCreateSection: field `f` has `num_dof[f*(dim+1)+d]` values
on points of depth `d`, where the caller counts with dimension 3 and the library with that of the mesh
(`depth` of its points).  Reads beyond the array of 8 entries are 0 here; there are none in a mesh of
dimension 3 or less. -/
def diagSection (m : Points) (depth : Nat → Nat) : Section :=
  let dim := 3
  let num := wr (wr (fun _ => 0) (0*(dim + 1) + dim) 1) (1*(dim + 1) + dim) 1
  { pStart := 0, pEnd := m.pEnd, nFields := 2,
    name := wr (wr (fun _ => "") 0 "LiquidSaturation") 1 "LiquidMass",
    comps := fun f => if f < 2 then 1 else 0,
    fdof := fun p f => if f < 2 then num (f*(m.dim + 1) + depth p) else 0,
    dof := fun p => forN 2 (fun f a => a + num (f*(m.dim + 1) + depth p)) 0 }

end TDy.Sections
