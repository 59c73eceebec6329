import Verif.Basic
import Verif.Loop

/-!
# Output files, and the fields that are written to them

Models src/tdyio.c:361-704 (`TDyIOSetMode`, `TDyIOWriteVec`, the writers of each format, `TDyIODestroy`),
src/tdycore.c:1683-1750, 1795-1825 (diagnostic fields) and
src/tdydiscretization.c:188-220 (`TDyDiscretizationGlobalToNatural` on a DMPlex).
A distributed vector is modelled as one array, the parts of the ranks one after another.
-/

namespace TDy.Output

open TDy

/-- A vector: its length and entries. -/
structure Vec (α : Type) where
  len : Nat
  val : Nat → α

/-! ### Natural order and diagnostics -/

/-- The cells of a mesh on `ranks` ranks: `n` cells with `ndof` unknowns each; `nat` is the natural
number of the cell with the given global number. -/
structure Layout where
  ranks : Nat
  n : Nat
  ndof : Nat
  nat : Nat → Nat

/-- src/tdydiscretization.c:188-220, case PLEX_TYPE, with `DMPlexGlobalToNaturalBegin/End`: on one rank
the vector is copied (an error if the lengths differ); otherwise the star forest of the DM moves the
`ndof` entries of every cell and relies on both arrays being long enough.  Simplified: only meshes with
a natural order (src/tdycore.c:683); without one the program ends with exit code 0 at 204-207. -/
def globalToNatural {α : Type} (L : Layout) (v out : Vec α) : Res (Vec α) :=
  if L.ranks = 1 then
    if v.len = out.len then .ok { out with val := fun i => if i < out.len then v.val i else out.val i }
    else .err out
  else if v.len < L.n*L.ndof ∨ out.len < L.n*L.ndof then .ub
  else .ok { out with val := forN L.n (fun c a => forN L.ndof (fun k a =>
      wr a (L.ndof*L.nat c + k) (v.val (L.ndof*c + k))) a) out.val }

/-- src/tdycore.c:1736-1738, `VecStrideGather` out of the diagnostic vector, which has two fields
(src/tdycore.c:764, include/private/tdycoreimpl.h:24-25: saturation 0, mass 1). -/
def strideGather {α : Type} (n : Nat) (diag : Nat → α) (index : Nat) (out : Nat → α) : Nat → α :=
  forN n (fun c a => wr a c (diag (2*c + index))) out

/-- src/tdycore.c:1795-1825, `TDyGetLiquidSaturation` (`index = 0`) and `TDyGetLiquidMass`
(`index = 1`).  `tmp` and `sat` are vectors of `TDyCreateDiagnosticVector` (src/tdycore.c:1686-1706), with
one entry per cell. -/
def getDiagnostic {α : Type} (L : Layout) (diag : Nat → α) (index : Nat) (tmp sat : Nat → α) :
    Res (Vec α) :=
  globalToNatural L ⟨L.n, strideGather L.n diag index tmp⟩ ⟨L.n, sat⟩

/-- What one call of `TDyIOWriteVec` hands to the writers. -/
structure Fields (α : Type) where
  pressure : Vec α
  saturation : Vec α

/-- A failed call of one type seen as a failed call of another. -/
def castFailure {σ τ : Type} (r : Res σ) (s : τ) : Res τ :=
  match r with
  | .ub => .ub
  | _ => .err s

/-- src/tdyio.c:399-455, `TDyIOWriteVec` with HDF5Format: the saturation comes from
`TDyGetLiquidSaturation`; both vectors go through `TDyGlobalToNatural` into new global vectors.
`z` are the (unused) first contents of new vectors. -/
def hdf5Fields {α : Type} (L : Layout) (p : Nat → α) (diag : Nat → α) (z : Nat → α) :
    Res (Fields α) :=
  match getDiagnostic L diag 0 z z with
  | .ok s =>
    match globalToNatural L ⟨L.n*L.ndof, p⟩ ⟨L.n*L.ndof, z⟩ with
    | .ok pn =>
      match globalToNatural L s ⟨L.n*L.ndof, z⟩ with
      | .ok sn => .ok ⟨pn, sn⟩
      | r => castFailure r ⟨pn, s⟩
    | r => castFailure r ⟨⟨0, z⟩, s⟩
  | r => castFailure r ⟨⟨0, z⟩, ⟨0, z⟩⟩

/-- src/tdyio.c:421-424, `TDyIOWriteVec` with PetscViewerASCIIFormat: the vectors are written as they
are. -/
def asciiFields {α : Type} (L : Layout) (p : Nat → α) (diag : Nat → α) (z : Nat → α) :
    Res (Fields α) :=
  match getDiagnostic L diag 0 z z with
  | .ok s => .ok ⟨⟨L.n*L.ndof, p⟩, s⟩
  | r => castFailure r ⟨⟨0, z⟩, ⟨0, z⟩⟩

/-! ### Files -/

/-- `TDyIOFormat`. -/
inductive Format where
  | null | ascii | exodus | hdf5
  deriving DecidableEq, Repr

/-- Pieces of out.xmf. -/
inductive Item where
  | header
  | attribute (label name : String)
  | footer
  deriving DecidableEq, Repr

/-- The files of the run and the fields of `tdy->io`.  `h5` are the data sets of out.h5 under
/cell_fields, by printed time and name (the newest first: a data set that is written again is
overwritten); `exo` those of out.exo, by step and name. -/
structure Disk (α : Type) where
  format : Format
  numTimes : Nat
  xmf : List Item
  h5 : List ((String × String) × Vec α)
  exo : List ((Nat × String) × Vec α)
  text : List (String × Vec α)

/-- `io->zonalVarNames` (src/tdyio.c:25-26). -/
def pressureName : String := "LiquidPressure"
def saturationName : String := "LiquidSaturation"

/-- src/tdyio.c:361-397, `TDyIOSetMode`, with 509-531 and 465-477 (the files are created anew) and 597
(out.xmf is opened for writing; all ranks write the same header). -/
def setMode {α : Type} (d : Disk α) (f : Format) : Disk α :=
  match f with
  | .exodus => { d with format := f, exo := [] }
  | .hdf5 => { d with format := f, h5 := [], xmf := [.header] }
  | _ => { d with format := f }

/-- src/tdyio.c:479-507, `TDyIOWriteHDF5Var`, with 648-683 (`TDyIOWriteXMFAttribute`, by rank 0). -/
def writeHdf5Var {α : Type} (d : Disk α) (label name : String) (v : Vec α) : Disk α :=
  { d with h5 := ((label, name), v) :: d.h5, xmf := d.xmf ++ [.attribute label name] }

/-- src/tdyio.c:533-552, `TDyIOAddExodusTime`: the next step. -/
def addExodusTime {α : Type} (d : Disk α) : Disk α := { d with numTimes := d.numTimes + 1 }

/-- src/tdyio.c:554-568, `TDyIOWriteExodusVar`: the step is the output sequence number plus one. -/
def writeExodusVar {α : Type} (d : Disk α) (name : String) (v : Vec α) : Disk α :=
  { d with exo := ((d.numTimes - 1 + 1, name), v) :: d.exo }

/-- src/tdyio.c:570-582, `TDyIOWriteAsciiViewer`: the name of the file is printed into `char word[32]`,
which needs a byte for the terminating zero. -/
def writeAscii {α : Type} (d : Disk α) (label name : String) (v : Vec α) : Res (Disk α) :=
  if (label ++ "_" ++ name ++ ".txt").length + 1 > 32 then .ub
  else .ok { d with text := (label ++ "_" ++ name ++ ".txt", v) :: d.text }

/-- src/tdyio.c:399-463, `TDyIOWriteVec`, given the vectors to write and the printed time. -/
def writeVec {α : Type} (d : Disk α) (label : String) (f : Fields α) : Res (Disk α) :=
  match d.format with
  | .ascii =>
    (writeAscii d label pressureName f.pressure).bind fun d =>
      writeAscii d label saturationName f.saturation
  | .exodus =>
    .ok (writeExodusVar (writeExodusVar (addExodusTime d) pressureName f.pressure) saturationName
      f.saturation)
  | .hdf5 =>
    .ok (writeHdf5Var (writeHdf5Var d label pressureName f.pressure) label saturationName
      f.saturation)
  | .null => .err d

/-- src/tdyio.c:685-704, `TDyIODestroy` with `TDyIOWriteXMFFooter`: each rank appends a footer to
out.xmf, with any format. -/
def destroy {α : Type} (ranks : Nat) (d : Disk α) : Disk α :=
  { d with xmf := forN ranks (fun _ x => x ++ [.footer]) d.xmf }

/-- Several outputs, one after another. -/
def writeAll {α : Type} : Disk α → List (String × Fields α) → Res (Disk α)
  | d, [] => .ok d
  | d, (label, f) :: ws => (writeVec d label f).bind fun d => writeAll d ws

end TDy.Output
