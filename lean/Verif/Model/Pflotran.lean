import Verif.Basic
import Verif.Loop
import Mathlib.Data.Real.Basic

/-!
# Meshes in PFLOTRAN format: what the grid manager sets up and which methods can use it

Models src/fv/share/tdyugdm.c 140-173, 181-206, 271-311 (index sets and scatters),
src/fv/share/tdydm.c 45-69 (the shell `DM`), src/tdycore.c 656-658 (`TDySetFromOptions` with
`-tdy_read_pflotran_mesh`), the entry of the set-up functions of the methods, and the material
functions during the set-up of the two-point method (src/fv/fvtpf/tdyfvtpf.c 157-179, 257-271, 449-495).
What the mesh itself contains is the subject of `Verif.Model.UGrid` and `Verif.Model.MeshCustom`.
-/

namespace TDy.Pflotran

open TDy

/-! ## Scatters between the vectors of the shell `DM`

`n r` cells are owned by rank `r < R`; PETSc numbers cells rank by rank. -/

/-- `global_offset` of a rank (an MPI_Exscan of the numbers of owned cells). -/
def offset (n : Nat → Nat) : Nat → Nat
  | 0 => 0
  | r + 1 => offset n r + n r

/-- A copy of blocks of `ndof` entries from block `src i` to block `dst i`, for `i < m`: a
`VecScatter` between index sets made with `ISCreateBlock`. -/
def copyBlocks {α : Type} (m ndof : Nat) (src dst : Nat → Nat) (x y : Nat → α) : Nat → α :=
  forN m (fun i y => forN ndof (fun k y => wr y (dst i*ndof + k) (x (src i*ndof + k))) y) y

/-- tdyugdm.c 145-149: `IS_LocalCells_in_LocalOrder`. -/
def localInLocal (i : Nat) : Nat := i

/-- tdyugdm.c 190-194: `IS_LocalCells_in_GlobalOrder` of rank `r`. -/
def localInGlobal (n : Nat → Nat) (r i : Nat) : Nat := i + offset n r

/-- tdyugdm.c 154-158: `IS_GhostedCells_in_LocalOrder`. -/
def ghostedInLocal (i : Nat) : Nat := i

/-- tdyugdm.c 199-206: `IS_GhostedCells_in_GlobalOrder` of rank `r`; `ghosts r j` is
`ghost_cell_ids_petsc[j]` on that rank. -/
def ghostedInGlobal (n : Nat → Nat) (ghosts : Nat → Nat → Nat) (r i : Nat) : Nat :=
  if i < n r then i + offset n r else ghosts r (i - n r)

/-- `DMGlobalToLocal` of the shell `DM` on rank `r` (tdydm.c 54): the scatter of tdyugdm.c 290-295. -/
def globalToLocal {α : Type} (n : Nat → Nat) (ghosts : Nat → Nat → Nat) (ng : Nat → Nat) (ndof r : Nat)
    (g loc : Nat → α) : Nat → α :=
  copyBlocks (ng r) ndof (ghostedInGlobal n ghosts r) ghostedInLocal g loc

/-- `DMLocalToGlobal` of the shell `DM` with INSERT_VALUES, on all ranks (tdydm.c 55): the scatter of
tdyugdm.c 280-285.  `loc r` is the local vector of rank `r`. -/
def localToGlobal {α : Type} (n : Nat → Nat) (ndof R : Nat) (loc : Nat → Nat → α) (g : Nat → α) : Nat → α :=
  forN R (fun r g => copyBlocks (n r) ndof localInLocal (localInGlobal n r) (loc r) g) g

/-- tdyugdm.c 300-307: a copy of the scatter to local vectors of which the places that are sent are
replaced: entry `e` of the owned part of a global vector (there are `n r*ndof`) becomes entry `idx[e]` of
the local vector.  `idx` has `n r` entries, `idx[i] = int_ptr[i]`, where `int_ptr` are the indices of the
block index set one by one; `VecScatterRemap` reads one entry for each entry of the vector. -/
def remap (n : Nat → Nat) (ndof r : Nat) : Res (Nat → Nat) :=
  if n r*ndof ≤ n r then .ok (fun e => localInLocal (e / ndof)*ndof + e % ndof) else .ub

/-- `DMLocalToLocal` of the shell `DM` on rank `r` (tdydm.c 56): the owned entries that the ranks send
(`sent`, at the places of `map`), delivered as by `globalToLocal`. -/
def localToLocal {α : Type} (n : Nat → Nat) (ghosts : Nat → Nat → Nat) (ng : Nat → Nat) (ndof R r : Nat)
    (map : Nat → Nat → Nat) (x : Nat → Nat → α) (y : Nat → α) : Nat → α :=
  let sent := forN R (fun s g => forN (n s*ndof) (fun e g => wr g (offset n s*ndof + e) (x s (map s e))) g) (x r)
  globalToLocal n ghosts ng ndof r sent y

/-! ## Which methods can use the mesh -/

inductive Mode where
  | richards | th | salinity
  deriving DecidableEq

inductive Disc where
  | mpfaO | mpfaODae | mpfaOTransientVar | fvTpf | wy | bdm
  deriving DecidableEq

/-- src/tdycore.c 844-932: the pairs TDySetDiscretization accepts. -/
def accepted : Mode → Disc → Bool
  | .richards, _ => true
  | .th, .mpfaO => true
  | .salinity, .mpfaO => true
  | _, _ => false

/-- The value of `ops->get_num_dm_fields(context)` after TDySetMode and TDySetDiscretization on a new
object (src/tdycore.c 844-932; src/fv/mpfao/tdympfao.c 813-835, src/fv/fvtpf/tdyfvtpf.c 140-144,
src/fe/tdybdm.c 74-78); in TH mode the pointer is not set (src/tdycore.c 905-912). -/
def numFields : Mode → Disc → Option Nat
  | .richards, .mpfaO => some 1
  | .richards, .mpfaODae => some 2
  | .richards, .mpfaOTransientVar => some 1
  | .richards, .fvTpf => some 1
  | .richards, .wy => some 1
  | .richards, .bdm => some 1
  | .salinity, .mpfaO => some 2
  | _, _ => none

/-- src/tdycore.c 656-658 and tdydm.c 45-69 on one rank with `n` owned cells: the number of unknowns of a
cell.  Calling a pointer that is NULL is undefined. -/
def readMesh (m : Mode) (d : Disc) (n : Nat) : Res Nat :=
  match numFields m d with
  | none => .ub
  | some ndof => (match remap (fun _ => n) ndof 0 with
      | .ok _ => .ok ndof
      | .err _ => .err ndof
      | .ub => .ub)

/-- The material functions the two-point method evaluates. -/
inductive Key where
  | permeability | porosity | residualSaturation | thermalConductivity | specificHeat | density
  deriving DecidableEq

/-- A material function of the user: the coordinates (`none` is NULL) and the number of points give the
values at the points. -/
abbrev Fn := Option (Nat → Fin 3 → ℝ) → Nat → Res (Nat → ℝ)

/-- A function with the same value everywhere (src/materials/tdymaterialproperties.c 419-427). -/
def constant (v : ℝ) : Fn := fun _ _ => .ok (fun _ => v)

/-- A function of the coordinates: it reads the coordinates of each of the points. -/
def spatial (f : (Fin 3 → ℝ) → ℝ) : Fn := fun x n =>
  match x with
  | some x => .ok (fun i => f (x i))
  | none => if n = 0 then .ok (fun _ => 0) else .ub

/-- src/materials/tdymaterialproperties.c 239-375, `MaterialPropCompute…`: nothing without a function. -/
def compute (f : Option Fn) (x : Option (Nat → Fin 3 → ℝ)) (n : Nat) (a : Nat → ℝ) : Res (Nat → ℝ) :=
  match f with
  | none => .ok a
  | some f => f x n

/-- src/fv/fvtpf/tdyfvtpf.c 257-271: the properties in the order of the code (one number for each cell:
tensors are not unfolded).  `vals` are the arrays as they are allocated, full of zeros. -/
def initMaterials (mat : Key → Option Fn) (x : Option (Nat → Fin 3 → ℝ)) (n : Nat)
    (vals : Key → Nat → ℝ) : Res (Key → Nat → ℝ) :=
  let step := fun (k : Key) (r : Res (Key → Nat → ℝ)) => r.bind fun vals =>
    match compute (mat k) x n (vals k) with
    | .ok a => .ok (fun k' => if k' = k then a else vals k')
    | .err _ => .err vals
    | .ub => .ub
  step .density (step .specificHeat (step .thermalConductivity (step .residualSaturation
    (step .porosity (step .permeability (.ok vals))))))

/-- Where the mesh comes from; `centroids` are those of its cells. -/
inductive Source where
  | plex | pflotran
  deriving DecidableEq

/-- `fvtpf->X` during the set-up (src/fv/fvtpf/tdyfvtpf.c 467-482): filled by `TDyMeshCreateFromPlex`;
`TDyMeshCreateFromDiscretization` is not given the array, which stays NULL. -/
def coordinates (s : Source) (centroids : Nat → Fin 3 → ℝ) : Option (Nat → Fin 3 → ℝ) :=
  match s with
  | .plex => some centroids
  | .pflotran => none

/-- The set-up functions, as far as the mesh and the material functions are concerned.  The two-point
method distinguishes the sources (src/fv/fvtpf/tdyfvtpf.c 467-482).  MPFA-O calls `TDyMeshCreateFromPlex`
(src/fv/mpfao/tdympfao.c 2290, 2399, 2468) on the shell `DM`, whose dimension is not three; the error is
dropped and the NULL mesh is dereferenced (see `Verif.Model.MeshErrors`).  The set-up of the DAE form
returns at once (src/fv/mpfao/tdympfao.c 2340).  The finite elements call `DMPlexGetChart` (src/fe/tdywy.c
343, src/fe/tdybdm.c 113) on the shell `DM`, whose data are not those of a `DMPlex`: undefined.  For meshes
of `DMPlex` only the two-point method is modelled here. -/
def setup (s : Source) (d : Disc) (mat : Key → Option Fn) (centroids : Nat → Fin 3 → ℝ) (n : Nat) :
    Res (Key → Nat → ℝ) :=
  match d with
  | .fvTpf => initMaterials mat (coordinates s centroids) n (fun _ _ => 0)
  | .mpfaODae => .ok (fun _ _ => 0)
  | _ => .ub

/-- `TDySetFromOptions` with a PFLOTRAN mesh and `TDySetup`: the unknowns of a cell and the properties. -/
def prepare (m : Mode) (d : Disc) (mat : Key → Option Fn) (centroids : Nat → Fin 3 → ℝ) (n : Nat) :
    Res (Nat × (Key → Nat → ℝ)) :=
  match readMesh m d n with
  | .ok ndof => (match setup .pflotran d mat centroids n with
      | .ok v => .ok (ndof, v)
      | .err v => .err (ndof, v)
      | .ub => .ub)
  | .err ndof => .err (ndof, fun _ _ => 0)
  | .ub => .ub

end TDy.Pflotran
