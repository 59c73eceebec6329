import Verif.Basic
import Verif.Loop

/-!
# The faces of the boundary

Models the marking of the boundary in `TDySetFromOptions` (src/tdycore.c 696-704), `TDyGetBoundaryFaces`
(448-467) and the question whether a face is on the boundary in src/fe/tdywy.c 750-752.
The functions of PETSc are modelled after their documentation.
-/

namespace TDy.Boundary

open TDy

/-- A mesh as `DMPlex` shows it: points `0 .. pEnd - 1`, of which `fStart .. fEnd - 1` are the faces, the
number of cells at each face and the closure of each point (the point itself, its faces, edges and
vertices). -/
structure Plex where
  (pEnd fStart fEnd : Nat)
  (support : Nat → Nat)
  (closure : Nat → List Nat)

/-- A label gives some points a value; `-1` is `none`. -/
abbrev Label := Nat → Option Nat

/-- `DMPlexMarkBoundaryFaces(dm, 1, label)` (tdycore.c 702): the faces with one cell. -/
def markFaces (m : Plex) (l : Label) : Label :=
  forN (m.fEnd - m.fStart) (fun i l =>
    if m.support (m.fStart + i) = 1 then wr l (m.fStart + i) (some 1) else l) l

/-- `DMLabelGetStratumIS(label, 1, ..)`: the points with the value, in ascending order. -/
def stratum (m : Plex) (l : Label) : List Nat :=
  (List.range m.pEnd).filter (fun p => l p = some 1)

/-- `DMPlexLabelComplete` (tdycore.c 703): the closure of each labelled point gets its value. -/
def complete (m : Plex) (l : Label) : Label :=
  (stratum m l).foldl (fun l p => (m.closure p).foldl (fun l q => wr l q (some 1)) l) l

/-- `TDySetFromOptions`, tdycore.c 696-703: the label "boundary" of a mesh of PETSc; a mesh read from a
PFLOTRAN file (tdycore.c 656-658) gets none. -/
def boundaryLabel (petsc : Bool) (m : Plex) : Option Label :=
  if petsc then some (complete m (markFaces m (fun _ => none))) else none

/-- `TDyGetBoundaryFaces`, tdycore.c 454-467: the size of the stratum and its points.  Without the label
a NULL pointer is read. -/
def getBoundaryFaces (m : Plex) (l : Option Label) : Res (Nat × List Nat) :=
  match l with
  | none => .ub
  | some l => .ok ((stratum m l).length, stratum m l)

/-- `DMGetLabelValue(dm, "boundary", face, &isbc); isbc == 1`, tdywy.c 750-752 and 914-916: without the
label the value is -1. -/
def isBoundary (l : Option Label) (f : Nat) : Bool :=
  match l with
  | none => false
  | some l => decide (l f = some 1)

end TDy.Boundary
