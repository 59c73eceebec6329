import Verif.Basic
import Verif.Loop
import Verif.Model.Slots
import Verif.Model.UGrid
import Mathlib.Data.Real.Basic

/-!
# Input and output (src/tdyio.c) and regression sampling (src/tdyregression.c)

Vectors are functions of the index.  A heap buffer has a size (a number of elements) and storing or reading
outside it is undefined.  `TDyAlloc(size, result)` is `PetscCalloc1(size, result)`
(include/private/tdymemoryimpl.h:11), which allocates `size` zeroed *elements* of the pointed-to type, although
its comment says bytes.

HDF5 and the viewers are not modelled beyond: a file is a vector, and loading gives that vector.
-/

namespace TDy.Io

open TDy.UGrid

noncomputable section

/-- A heap buffer of `size` reals. -/
structure Buf where
  size : Nat
  val : Nat → ℝ

/-- `TDyAlloc(n, &ptr)` for a `PetscReal *ptr` (include/private/tdymemoryimpl.h:11). -/
def alloc (n : Nat) : Buf := ⟨n, fun _ => 0⟩

/-- `ptr[i] = v`. -/
def Buf.store (b : Buf) (i : Nat) (v : ℝ) : Option Buf :=
  if i < b.size then some ⟨b.size, wr b.val i v⟩ else none

/-! ## Reading variables -/

/-- How a rank sees the cells: `n` cells and `ndof` unknowns per cell in all, `cell p` the natural number of the
cell with global number `p`, `ng` local cells (owned and ghost) of which cell `l` has global number `idx l`. -/
structure Layout where
  n : Nat
  ndof : Nat
  cell : Nat → Nat
  ng : Nat
  idx : Nat → ℤ

/-- TDyDiscretizationNaturaltoLocal (tdydiscretization.c:290-306); `g0`, `l0` are the new vectors. -/
def naturalToLocal (L : Layout) (nat g0 l0 : Nat → ℝ) : Nat → ℝ :=
  globalToLocal L.ng L.ndof L.idx (naturalToGlobal L.n L.ndof L.cell nat g0) l0

/-- A vector in a file. -/
structure Dataset where
  len : Nat
  val : Nat → ℝ

/-- The loop tdyio.c:323-325 over the elements of the local vector. -/
def copyOut (n : Nat) (ptr : Nat → ℝ) (b : Buf) : Option Buf :=
  forN n (fun i o => o.bind (fun b => b.store i (ptr i))) (some b)

/-- TDyIOReadVariable (tdyio.c:301-332).  The scatter refuses a vector whose size is not that of the global
vector. -/
def readVariable (L : Layout) (g0 l0 : Nat → ℝ) (file : Dataset) : Res Buf :=
  if file.len = L.n*L.ndof then
    match copyOut (L.ng*L.ndof) (naturalToLocal L file.val g0 l0) (alloc (L.ng*L.ndof)) with
    | some b => .ok b
    | none => .ub
  else .err (alloc 0)

/-- `memset(tensors, 0, bytes)` on 8-byte reals: the entries that lie wholly in the range become 0; the entry that
the end of the range cuts keeps part of its bytes (`cut` is what is then read). -/
def memset0 (cut : ℝ → ℝ) (bytes : Nat) (a : Nat → ℝ) : Nat → ℝ :=
  fun k => if 8*(k + 1) ≤ bytes then 0 else if 8*k < bytes then cut (a k) else a k

/-- AssignDiagonalTensors (tdyio.c:121-141).  `sizeof(dim*dim)` is the size of an int, 4. -/
def assignDiagonal (cut : ℝ → ℝ) (dim n : Nat) (tx ty tz : Nat → ℝ) (tensors : Nat → ℝ) : Nat → ℝ :=
  let t := memset0 cut (4*n) tensors
  if dim = 2 then forN n (fun i t => wr (wr t (dim*dim*i) (tx i)) (dim*dim*i + 3) (ty i)) t
  else forN n (fun i t =>
    wr (wr (wr t (dim*dim*i) (tx i)) (dim*dim*i + 4) (ty i)) (dim*dim*i + 8) (tz i)) t

/-- AssignScalars (tdyio.c:217-225). -/
def assignScalars (n : Nat) (values s : Nat → ℝ) : Nat → ℝ := forN n (fun i s => wr s i (values i)) s

/-- TDyIOReadPermeability (tdyio.c:164-214) followed by MaterialPropComputePermeability into `tensors` for the `ng`
local cells.  With -anisotropic_perm the files are X, Y and Z; without, one file whose first three values
become the diagonal of a constant tensor (tdyio.c:203-211). -/
def permeability (L : Layout) (cut : ℝ → ℝ) (dim : Nat) (aniso : Bool) (g0 l0 : Nat → ℝ)
    (fx fy fz : Dataset) (tensors : Nat → ℝ) : Res (Nat → ℝ) :=
  if aniso then
    match readVariable L g0 l0 fx, readVariable L g0 l0 fy, readVariable L g0 l0 fz with
    | .ok kx, .ok ky, .ok kz =>
      if L.ng ≤ kx.size then .ok (assignDiagonal cut dim L.ng kx.val ky.val kz.val tensors) else .ub
    | .ub, _, _ => .ub
    | .ok _, .ub, _ => .ub
    | .ok _, .ok _, .ub => .ub
    | _, _, _ => .err tensors
  else
    match readVariable L g0 l0 fx with
    | .ok k => if 3 ≤ k.size then .ok (Slots.constantDiagonal dim k.val L.ng tensors) else .ub
    | .ub => .ub
    | .err _ => .err tensors

/-- TDyIOReadPorosity (tdyio.c:235-256) followed by MaterialPropComputePorosity for the `ng` local cells.  The code
of TDyIOReadVariable is dropped; after a failure the pointer is not set. -/
def porosity (L : Layout) (g0 l0 : Nat → ℝ) (f : Dataset) (out : Nat → ℝ) : Res (Nat → ℝ) :=
  match readVariable L g0 l0 f with
  | .ok b => if L.ng ≤ b.size then .ok (assignScalars L.ng b.val out) else .ub
  | _ => .ub

/-! ## Checkpoints -/

/-- The contents of a checkpoint file (tdyio.c:351-355): the data set "IC" and the attribute "time step". -/
structure Saved where
  ic : Dataset
  step : Nat

/-- The files of the working directory, by the label that `%11.5e` prints (tdyio.c:348).  `Label` is the printed
text: significand of six digits and exponent. -/
abbrev Label := Nat × Int

abbrev Files := Label → Option Saved

/-- TDyIOOutputCheckpoint (tdyio.c:339-359) with the solution `prev` in global order: the file is opened for
appending, so a file of that name keeps existing and its data set and attribute are overwritten. -/
def outputCheckpoint (L : Layout) (label : ℝ → Label) (time : ℝ) (step : Nat) (prev n0 : Nat → ℝ)
    (fs : Files) : Files :=
  fun l => if l = label time then
    some ⟨⟨L.n*L.ndof, globalToNatural L.n L.ndof L.cell prev n0⟩, step⟩ else fs l

/-- What a restarted run starts from. -/
structure Start where
  soln : Nat → ℝ
  prev : Nat → ℝ
  loc : Nat → ℝ
  time : ℝ
  step : Nat

/-- TDyIOReadIC (tdyio.c:263-290) and TDySetInitialCondition (tdycore.c:1625-1632) in a run whose vectors hold
`s`: both solution vectors and the local one are set, the clock (set by TDyTimeIntegratorCreate, tdyti.c:8-69) is
not. -/
def readIC (L : Layout) (f : Dataset) (g0 : Nat → ℝ) (s : Start) : Res Start :=
  if f.len = L.n*L.ndof then
    .ok { s with
      soln := naturalToGlobal L.n L.ndof L.cell f.val s.soln
      prev := naturalToGlobal L.n L.ndof L.cell f.val s.prev
      loc := naturalToLocal L f.val g0 s.loc }
  else .err s

/-! ## Visualisation header -/

/-- The table `cellMap` of TDyIOWriteXMFHeader (tdyio.c:588-595); `none` is a null pointer. -/
def cellMap (i : Nat) : Option String :=
  if i = 0 then some "0" else if i = 1 then some "Polyvertex" else if i = 2 then some "Polyline"
  else if i = 6 then some "Triangle" else if i = 8 then some "Quadrilateral"
  else if i = 12 then some "Tetrahedron" else if i = 18 then some "Wedge"
  else if i = 24 then some "Hexahedron" else none

/-- What the header of out.xmf says about the mesh. -/
structure Header where
  topology : String
  cells : Nat
  verts : Nat
  dim : Nat
  corners : Nat
  deriving DecidableEq

/-- The mesh as the DM presents it: dimension, corners of a cell, cells, and the number of points of each
height (cells have height 0, vertices height `dim`). -/
structure DMesh where
  dim : Nat
  corners : Nat
  height : Nat → Nat

/-- TDyIOSetMode with HDF5Format (tdyio.c:383-394) and TDyIOWriteXMFHeader (tdyio.c:584-646): vertices are taken to
be the points of height 3 and cells the entries of the solution vector. -/
def xmfHeader (m : DMesh) (ndof : Nat) : Option Header :=
  if m.dim*m.corners < 25 then
    (cellMap (m.dim*m.corners)).map (fun t => ⟨t, m.height 0*ndof, m.height 3, m.dim, m.corners⟩)
  else none

/-! ## Regression sampling -/

/-- The sampling of TDyRegressionInitialize (tdyregression.c:29-89) on one rank.  `vec` is the local size of the
solution vector, `minVec` the smallest one, `req` the requested number of cells, `off` the sum of the local
sizes of the lower ranks, `th` whether the mode is TH.  The result is the number of samples and their positions
in the global vector; a division by zero is undefined. -/
structure Sample where
  num : Nat
  dof : Nat
  pos : Nat → Nat

def regression (th : Bool) (req minVec vec off : Nat) : Option Sample :=
  let dof := if th then 2 else 1
  let num := if minVec < req then minVec else req
  if num = 0 then none
  else
    let inc := if th then vec/num/2 else vec/num
    some ⟨num, dof, forN num (fun c a => forN dof (fun d a =>
      wr a (dof*c + d) (dof*c*inc + off + d)) a) (fun _ => 0)⟩

end

end TDy.Io
