import Verif.Basic
import Verif.Loop

/-!
# Memory: the allocation helpers and what is allocated and freed around them

Models src/tdymemory.c and the order of allocations and releases in
`TDyMeshCreateFromPlex`/`TDyMeshDestroy` (src/fv/share/tdymeshplex.c, src/fv/share/tdymesh.c), in the
set-up and destruction of MPFA-O and in its local problems (src/fv/mpfao/tdympfao.c,
src/fv/mpfao/tdympfao_utils.c).  Only which blocks are live is modelled here, not what they hold, except
for the pointers in arrays of arrays.  Allocation does not fail.
-/

namespace TDy.Mem

open TDy

/-- The heap: blocks are numbered in the order of their allocation. -/
structure Heap where
  next : Nat
  live : Nat → Bool

/-- A pointer; `none` is NULL. -/
abbrev Ptr := Option Nat

/-- An array of numbers, or an array of `cap` pointers to arrays. -/
inductive Obj where
  | leaf (p : Ptr)
  | node (p : Ptr) (cap : Nat) (elem : Nat → Obj)

/-- `TDyAlloc`, include/private/tdymemoryimpl.h 7-11 (`PetscCalloc1`): a request for nothing gives
NULL. -/
def alloc (size : Nat) (h : Heap) : Ptr × Heap :=
  if size = 0 then (none, h) else (some h.next, ⟨h.next + 1, wr h.live h.next true⟩)

/-- `TDyFree`, tdymemory.c 5-7: `PetscFree`, which accepts NULL; releasing a block that is not live is
undefined. -/
def free (p : Ptr) (h : Heap) : Res Heap :=
  match p with
  | none => .ok h
  | some b => if h.live b then .ok ⟨h.next, wr h.live b false⟩ else .ub

/-- `TDyAllocate_IntegerArray_1D`, `TDyAllocate_RealArray_1D`, `TDyAllocate_TDyCell_1D` and the like,
tdymemory.c 119-125, 142-145, 298-330. -/
def alloc1 (n : Nat) (h : Heap) : Obj × Heap :=
  let (p, h) := alloc n h
  (.leaf p, h)

/-- The form of `TDyAllocate_..._2D` to `_4D`: `n` pointers, then the array behind each.
`TDyAlloc(n*sizeof(T *), ..)` is `PetscCalloc1`, which multiplies by the size of an entry once more, so
that there are `8*n` pointers, all of them NULL at first. -/
def allocN (n : Nat) (inner : Heap → Obj × Heap) (h : Heap) : Obj × Heap :=
  let (p, h) := alloc n h
  let (e, h) := forN n (fun i (s : (Nat → Obj) × Heap) =>
    let (o, h) := inner s.2
    (wr s.1 i o, h)) (fun _ => .leaf none, h)
  (.node p (8*n) e, h)

/-- `TDyAllocate_IntegerArray_2D`, `TDyAllocate_RealArray_2D`, tdymemory.c 127-140, 148-161. -/
def alloc2 (n1 n2 : Nat) : Heap → Obj × Heap := allocN n1 (alloc1 n2)

/-- `TDyAllocate_RealArray_3D`, tdymemory.c 163-181. -/
def alloc3 (n1 n2 n3 : Nat) : Heap → Obj × Heap := allocN n1 (allocN n2 (alloc1 n3))

/-- `TDyAllocate_RealArray_4D`, tdymemory.c 184-206. -/
def alloc4 (n1 n2 n3 n4 : Nat) : Heap → Obj × Heap := allocN n1 (allocN n2 (allocN n3 (alloc1 n4)))

/-- `TDyDeallocate_RealArray_1D`, `TDyDeallocate_IntegerArray_1D`, tdymemory.c 208-216. -/
def free1 (o : Obj) (h : Heap) : Res Heap :=
  match o with
  | .leaf p => free p h
  | .node p _ _ => free p h

/-- The form of `TDyDeallocate_..._2D` to `_4D`: the arrays behind the first `n` pointers, then the
array of pointers.  Reading a pointer that is not there is undefined. -/
def freeN (n : Nat) (inner : Obj → Heap → Res Heap) (o : Obj) (h : Heap) : Res Heap :=
  match o with
  | .leaf p => if n = 0 then free p h else .ub
  | .node p cap e =>
    (forN n (fun i (r : Res Heap) => r.bind fun h => if i < cap then inner (e i) h else .ub) (.ok h)).bind (free p)

/-- `TDyDeallocate_IntegerArray_2D`, `TDyDeallocate_RealArray_2D`, tdymemory.c 218-242. -/
def free2 (n1 : Nat) : Obj → Heap → Res Heap := freeN n1 free1

/-- `TDyDeallocate_RealArray_3D`, tdymemory.c 244-258. -/
def free3 (n1 n2 : Nat) : Obj → Heap → Res Heap := freeN n1 (freeN n2 free1)

/-- `TDyDeallocate_RealArray_4D`, tdymemory.c 260-277. -/
def free4 (n1 n2 n3 : Nat) : Obj → Heap → Res Heap := freeN n1 (freeN n2 (freeN n3 free1))

/-- The arguments of an allocation. -/
inductive Shape where
  | d1 (n : Nat)
  | d2 (n1 n2 : Nat)
  | d3 (n1 n2 n3 : Nat)
  | d4 (n1 n2 n3 n4 : Nat)

/-- The arguments of a release. -/
inductive FShape where
  | d1
  | d2 (n1 : Nat)
  | d3 (n1 n2 : Nat)
  | d4 (n1 n2 n3 : Nat)

def Shape.alloc : Shape → Heap → Obj × Heap
  | d1 n => alloc1 n
  | d2 n1 n2 => alloc2 n1 n2
  | d3 n1 n2 n3 => alloc3 n1 n2 n3
  | d4 n1 n2 n3 n4 => alloc4 n1 n2 n3 n4

def FShape.free : FShape → Obj → Heap → Res Heap
  | d1 => free1
  | d2 n1 => free2 n1
  | d3 n1 n2 => free3 n1 n2
  | d4 n1 n2 n3 => free4 n1 n2 n3

/-- The base pointer. -/
def Obj.base : Obj → Ptr
  | leaf p => p
  | node p _ _ => p

section
variable {N : Type} [DecidableEq N]

/-- The allocations of `names` in this order, each stored under its name. -/
def allocAll (shape : N → Shape) (names : List N) (s : (N → Obj) × Heap) : (N → Obj) × Heap :=
  names.foldl (fun s x =>
    let (o, h) := (shape x).alloc s.2
    (Function.update s.1 x o, h)) s

/-- The releases of `names` in this order.  `guarded` are those inside `if (pointer)`. -/
def freeAll (fshape : N → FShape) (guarded : N → Bool) (names : List N) (c : N → Obj) (h : Heap) :
    Res Heap :=
  names.foldl (fun r x => r.bind fun h =>
    if guarded x && (c x).base.isNone then .ok h else (fshape x).free (c x) h) (.ok h)

end

/-- Nothing is allocated in a cleared structure (`TDyAlloc` clears memory). -/
def cleared {N : Type} : N → Obj := fun _ => .leaf none

/-! ## The mesh and the context of MPFA-O -/

/-- The sizes that enter the allocations: numbers of cells, faces, edges, vertices, boundary faces and
points of the mesh, and the largest or fixed numbers per cell, edge, face, vertex and subcell. -/
structure Dims where
  (nc nf ne nv nbnd pts vpc epc npc fpc nsub nnu vps fps epv nfv ncv cpe cpf epf vpf : Nat)

/-- The pointers of `TDyMPFAO` and of its `TDyMesh` (`c_`, `e_`, `f_`, `v_`, `s_` are those of cells,
edges, faces, vertices and subcells); `ctx` and `mesh` are the structures themselves.  A PETSc matrix
or vector is one block. -/
inductive Name where
  | ctx | mesh | closureSize | closure | c_id | c_global_id | c_natural_id | c_is_local
  | c_num_vertices | c_num_edges | c_num_faces | c_num_neighbors | c_num_subcells
  | c_vertex_offset | c_edge_offset | c_face_offset | c_neighbor_offset | c_vertex_ids
  | c_edge_ids | c_neighbor_ids | c_face_ids | c_centroid | c_volume | e_id | e_global_id
  | e_num_cells | e_vertex_ids | e_is_local | e_is_internal | e_cell_offset | e_cell_ids
  | e_centroid | e_normal | e_length | f_id | f_num_vertices | f_num_edges | f_num_cells
  | f_is_local | f_is_internal | f_vertex_offset | f_cell_offset | f_edge_offset | f_cell_ids
  | f_edge_ids | f_vertex_ids | f_bc_type | f_area | f_projected_area | f_dist | f_dist_wt_up
  | f_dist_up_dn | f_unit_vec_up_dn | f_centroid | f_normal | v_id | v_global_id
  | v_num_internal_cells | v_num_edges | v_num_faces | v_num_boundary_faces | v_is_local
  | v_coordinate | v_edge_offset | v_face_offset | v_internal_cell_offset | v_subcell_offset
  | v_boundary_face_offset | v_edge_ids | v_face_ids | v_subface_ids | v_internal_cell_ids
  | v_subcell_ids | v_boundary_face_ids | s_nu_vector | s_nu_star_vector
  | s_variable_continuity_coordinates | s_face_centroid | s_vertices_coordinates | s_id
  | s_num_nu_vectors | s_num_vertices | s_num_faces | s_type | s_nu_vector_offset
  | s_vertex_offset | s_face_offset | s_face_ids | s_is_face_up | s_face_unknown_idx
  | s_face_flux_idx | s_face_area | s_vertex_ids | s_T | V | X | N | vel | vel_count | K | K0
  | porosity | Kappa | Kappa0 | c_soil | rho_soil | D_saline | mu_saline | Kr | dKr_dS | S
  | dS_dP | d2S_dP2 | dS_dT | Sr | rho | drho_dP | d2rho_dP2 | vis | dvis_dP | d2vis_dP2 | h
  | dh_dT | dh_dP | drho_dT | u | du_dP | du_dT | dvis_dT | m_nacl | Trans | Trans_mat | P_vec
  | TtimesP_vec | GravDisVec | subc_Gmatrix | Temp_Trans | Temp_Trans_mat | Temp_P_vec
  | Temp_TtimesP_vec | Temp_subc_Gmatrix | Psi_Trans | Psi_Trans_mat | Psi_vec | TtimesPsi_vec
  | Psi_subc_Gmatrix | Kr_bnd | dKr_dS_bnd | S_bnd | dS_dP_bnd | d2S_dP2_bnd | P_bnd | rho_bnd
  | vis_bnd | Psi_bnd | T_bnd | h_bnd | source_sink | salinity_source_sink | energy_source_sink
  deriving DecidableEq

/-- The size each pointer is allocated with (see the lists below for the lines). -/
def shape (d : Dims) : Name → Shape
  | .ctx => .d1 1
  | .mesh => .d1 1
  | .closureSize => .d1 d.pts
  | .closure => .d2 d.pts (2 * 432)
  | .c_id => .d1 d.nc
  | .c_global_id => .d1 d.nc
  | .c_natural_id => .d1 d.nc
  | .c_is_local => .d1 d.nc
  | .c_num_vertices => .d1 d.nc
  | .c_num_edges => .d1 d.nc
  | .c_num_faces => .d1 d.nc
  | .c_num_neighbors => .d1 d.nc
  | .c_num_subcells => .d1 d.nc
  | .c_vertex_offset => .d1 (d.nc + 1)
  | .c_edge_offset => .d1 (d.nc + 1)
  | .c_face_offset => .d1 (d.nc + 1)
  | .c_neighbor_offset => .d1 (d.nc + 1)
  | .c_vertex_ids => .d1 (d.nc * d.vpc)
  | .c_edge_ids => .d1 (d.nc * d.epc)
  | .c_neighbor_ids => .d1 (d.nc * d.npc)
  | .c_face_ids => .d1 (d.nc * d.fpc)
  | .c_centroid => .d1 d.nc
  | .c_volume => .d1 d.nc
  | .e_id => .d1 d.ne
  | .e_global_id => .d1 d.ne
  | .e_num_cells => .d1 d.ne
  | .e_vertex_ids => .d1 (d.ne * 2)
  | .e_is_local => .d1 d.ne
  | .e_is_internal => .d1 d.ne
  | .e_cell_offset => .d1 (d.ne + 1)
  | .e_cell_ids => .d1 (d.ne * d.cpe)
  | .e_centroid => .d1 d.ne
  | .e_normal => .d1 d.ne
  | .e_length => .d1 d.ne
  | .f_id => .d1 d.nf
  | .f_num_vertices => .d1 d.nf
  | .f_num_edges => .d1 d.nf
  | .f_num_cells => .d1 d.nf
  | .f_is_local => .d1 d.nf
  | .f_is_internal => .d1 d.nf
  | .f_vertex_offset => .d1 (d.nf + 1)
  | .f_cell_offset => .d1 (d.nf + 1)
  | .f_edge_offset => .d1 (d.nf + 1)
  | .f_cell_ids => .d1 (d.nf * d.cpf)
  | .f_edge_ids => .d1 (d.nf * d.epf)
  | .f_vertex_ids => .d1 (d.nf * d.vpf)
  | .f_bc_type => .d1 d.nf
  | .f_area => .d1 d.nf
  | .f_projected_area => .d1 d.nf
  | .f_dist => .d1 d.nf
  | .f_dist_wt_up => .d1 d.nf
  | .f_dist_up_dn => .d2 d.nf 2
  | .f_unit_vec_up_dn => .d2 d.nf 2
  | .f_centroid => .d1 d.nf
  | .f_normal => .d1 d.nf
  | .v_id => .d1 d.nv
  | .v_global_id => .d1 d.nv
  | .v_num_internal_cells => .d1 d.nv
  | .v_num_edges => .d1 d.nv
  | .v_num_faces => .d1 d.nv
  | .v_num_boundary_faces => .d1 d.nv
  | .v_is_local => .d1 d.nv
  | .v_coordinate => .d1 d.nv
  | .v_edge_offset => .d1 (d.nv + 1)
  | .v_face_offset => .d1 (d.nv + 1)
  | .v_internal_cell_offset => .d1 (d.nv + 1)
  | .v_subcell_offset => .d1 (d.nv + 1)
  | .v_boundary_face_offset => .d1 (d.nv + 1)
  | .v_edge_ids => .d1 (d.nv * d.epv)
  | .v_face_ids => .d1 (d.nv * d.nfv)
  | .v_subface_ids => .d1 (d.nv * d.nfv)
  | .v_internal_cell_ids => .d1 (d.nv * d.ncv)
  | .v_subcell_ids => .d1 (d.nv * d.nfv)
  | .v_boundary_face_ids => .d1 (d.nv * d.nfv)
  | .s_nu_vector => .d1 (d.nc * d.nsub * d.nnu)
  | .s_nu_star_vector => .d1 (d.nc * d.nsub * d.nnu)
  | .s_variable_continuity_coordinates => .d1 (d.nc * d.nsub * d.nnu)
  | .s_face_centroid => .d1 (d.nc * d.nsub * d.nnu)
  | .s_vertices_coordinates => .d1 (d.nc * d.nsub * d.vps)
  | .s_id => .d1 (d.nc * d.nsub)
  | .s_num_nu_vectors => .d1 (d.nc * d.nsub)
  | .s_num_vertices => .d1 (d.nc * d.nsub)
  | .s_num_faces => .d1 (d.nc * d.nsub)
  | .s_type => .d1 (d.nc * d.nsub)
  | .s_nu_vector_offset => .d1 (d.nc * d.nsub + 1)
  | .s_vertex_offset => .d1 (d.nc * d.nsub + 1)
  | .s_face_offset => .d1 (d.nc * d.nsub + 1)
  | .s_face_ids => .d1 (d.nc * d.nsub * d.fps)
  | .s_is_face_up => .d1 (d.nc * d.nsub * d.fps)
  | .s_face_unknown_idx => .d1 (d.nc * d.nsub * d.fps)
  | .s_face_flux_idx => .d1 (d.nc * d.nsub * d.fps)
  | .s_face_area => .d1 (d.nc * d.nsub * d.fps)
  | .s_vertex_ids => .d1 (d.nc * d.nsub * d.fps)
  | .s_T => .d1 (d.nc * d.nsub)
  | .V => .d1 d.pts
  | .X => .d1 (3 * d.pts)
  | .N => .d1 (3 * d.pts)
  | .vel => .d1 d.nf
  | .vel_count => .d1 d.nf
  | .K => .d1 (9 * d.nc)
  | .K0 => .d1 (9 * d.nc)
  | .porosity => .d1 d.nc
  | .Kappa => .d1 (9 * d.nc)
  | .Kappa0 => .d1 (9 * d.nc)
  | .c_soil => .d1 d.nc
  | .rho_soil => .d1 d.nc
  | .D_saline => .d1 (9 * d.nc)
  | .mu_saline => .d1 d.nc
  | .Kr => .d1 d.nc
  | .dKr_dS => .d1 d.nc
  | .S => .d1 d.nc
  | .dS_dP => .d1 d.nc
  | .d2S_dP2 => .d1 d.nc
  | .dS_dT => .d1 d.nc
  | .Sr => .d1 d.nc
  | .rho => .d1 d.nc
  | .drho_dP => .d1 d.nc
  | .d2rho_dP2 => .d1 d.nc
  | .vis => .d1 d.nc
  | .dvis_dP => .d1 d.nc
  | .d2vis_dP2 => .d1 d.nc
  | .h => .d1 d.nc
  | .dh_dT => .d1 d.nc
  | .dh_dP => .d1 d.nc
  | .drho_dT => .d1 d.nc
  | .u => .d1 d.nc
  | .du_dP => .d1 d.nc
  | .du_dT => .d1 d.nc
  | .dvis_dT => .d1 d.nc
  | .m_nacl => .d1 d.nc
  | .Trans => .d3 d.nv d.nfv (d.nfv + d.ncv)
  | .Trans_mat => .d1 1
  | .P_vec => .d1 1
  | .TtimesP_vec => .d1 1
  | .GravDisVec => .d1 1
  | .subc_Gmatrix => .d4 d.nc 8 3 3
  | .Temp_Trans => .d3 d.nv d.nfv d.nfv
  | .Temp_Trans_mat => .d1 1
  | .Temp_P_vec => .d1 1
  | .Temp_TtimesP_vec => .d1 1
  | .Temp_subc_Gmatrix => .d4 d.nc 8 3 3
  | .Psi_Trans => .d3 d.nv d.nfv d.nfv
  | .Psi_Trans_mat => .d1 1
  | .Psi_vec => .d1 1
  | .TtimesPsi_vec => .d1 1
  | .Psi_subc_Gmatrix => .d4 d.nc 8 3 3
  | .Kr_bnd => .d1 d.nbnd
  | .dKr_dS_bnd => .d1 d.nbnd
  | .S_bnd => .d1 d.nbnd
  | .dS_dP_bnd => .d1 d.nbnd
  | .d2S_dP2_bnd => .d1 d.nbnd
  | .P_bnd => .d1 d.nbnd
  | .rho_bnd => .d1 d.nbnd
  | .vis_bnd => .d1 d.nbnd
  | .Psi_bnd => .d1 d.nbnd
  | .T_bnd => .d1 d.nbnd
  | .h_bnd => .d1 d.nbnd
  | .source_sink => .d1 d.nc
  | .salinity_source_sink => .d1 d.nc
  | .energy_source_sink => .d1 d.nc

/-- `TDyMeshCreateFromPlex`, tdymeshplex.c 3698, 3726-3727; `AllocateCells`, tdymesh.c 33-57;
`AllocateEdges`, 226-240; `AllocateFaces`, 271-298; `AllocateVertices`, 162-184; `AllocateSubcells`,
98-122; `TDyMeshComputeGeometryFromPlex`, tdymeshplex.c 3481-3483. -/
def meshAllocs : List Name :=
  [.mesh, .closureSize, .closure, .c_id, .c_global_id, .c_natural_id, .c_is_local,
  .c_num_vertices, .c_num_edges, .c_num_faces, .c_num_neighbors, .c_num_subcells,
  .c_vertex_offset, .c_edge_offset, .c_face_offset, .c_neighbor_offset, .c_vertex_ids,
  .c_edge_ids, .c_neighbor_ids, .c_face_ids, .c_centroid, .c_volume, .e_id, .e_global_id,
  .e_num_cells, .e_vertex_ids, .e_is_local, .e_is_internal, .e_cell_offset, .e_cell_ids,
  .e_centroid, .e_normal, .e_length, .f_id, .f_num_vertices, .f_num_edges, .f_num_cells,
  .f_is_local, .f_is_internal, .f_vertex_offset, .f_cell_offset, .f_edge_offset, .f_cell_ids,
  .f_edge_ids, .f_vertex_ids, .f_bc_type, .f_area, .f_projected_area, .f_dist, .f_dist_wt_up,
  .f_dist_up_dn, .f_unit_vec_up_dn, .f_centroid, .f_normal, .v_id, .v_global_id,
  .v_num_internal_cells, .v_num_edges, .v_num_faces, .v_num_boundary_faces, .v_is_local,
  .v_coordinate, .v_edge_offset, .v_face_offset, .v_internal_cell_offset, .v_subcell_offset,
  .v_boundary_face_offset, .v_edge_ids, .v_face_ids, .v_subface_ids, .v_internal_cell_ids,
  .v_subcell_ids, .v_boundary_face_ids, .s_nu_vector, .s_nu_star_vector,
  .s_variable_continuity_coordinates, .s_face_centroid, .s_vertices_coordinates, .s_id,
  .s_num_nu_vectors, .s_num_vertices, .s_num_faces, .s_type, .s_nu_vector_offset,
  .s_vertex_offset, .s_face_offset, .s_face_ids, .s_is_face_up, .s_face_unknown_idx,
  .s_face_flux_idx, .s_face_area, .s_vertex_ids, .s_T, .V, .X, .N]

/-- The material properties a user has set (`MaterialPropHas...`). -/
structure Has where
  (cond heat dens diff weight : Bool)

/-- The modes of MPFA-O. -/
inductive Mode where
  | richards | th | salinity
  deriving DecidableEq

/-- `InitMaterials`, tdympfao.c 646-690. -/
def materialAllocs (m : Has) : List Name :=
  [.K, .K0, .porosity] ++ (if m.cond then [.Kappa, .Kappa0] else []) ++
  (if m.heat then [.c_soil] else []) ++ (if m.dens then [.rho_soil] else []) ++
  (if m.diff then [.D_saline] else []) ++ (if m.weight then [.mu_saline] else []) ++
  [.Kr, .dKr_dS, .S, .dS_dP, .d2S_dP2, .dS_dT, .Sr, .rho, .drho_dP, .d2rho_dP2, .vis, .dvis_dP,
  .d2vis_dP2, .h, .dh_dT, .dh_dP, .drho_dT, .u, .du_dP, .du_dT, .dvis_dT, .m_nacl]

/-- tdympfao.c 2310-2320, 2419-2439, 2488-2508. -/
def matrixAllocs : Mode → List Name
  | .richards => [.Trans, .Trans_mat, .P_vec, .TtimesP_vec, .GravDisVec, .subc_Gmatrix]
  | .th => [.Trans, .Trans_mat, .P_vec, .TtimesP_vec, .GravDisVec,
      .Temp_Trans, .Temp_Trans_mat, .Temp_P_vec, .Temp_TtimesP_vec, .subc_Gmatrix, .Temp_subc_Gmatrix]
  | .salinity => [.Trans, .Trans_mat, .P_vec, .TtimesP_vec, .GravDisVec,
      .Psi_Trans, .Psi_Trans_mat, .Psi_vec, .TtimesPsi_vec, .subc_Gmatrix, .Psi_subc_Gmatrix]

/-- `AllocateMemoryForBoundaryValues`, `AllocateMemoryForSourceSinkValues` and, except in the Richards
mode, their counterparts for the energy, tdympfao.c 297-401. -/
def valueAllocs (m : Mode) : List Name :=
  [.Kr_bnd, .dKr_dS_bnd, .S_bnd, .dS_dP_bnd, .d2S_dP2_bnd, .P_bnd, .rho_bnd, .vis_bnd] ++
  (if m = .salinity then [.Psi_bnd] else []) ++ [.source_sink, .salinity_source_sink] ++
  (if m = .richards then [] else [.T_bnd, .h_bnd, .energy_source_sink])

/-- `TDyCreate_MPFAO` (tdympfao.c 434) and `TDySetup_Richards_MPFAO`, `TDySetup_TH_MPFAO`,
`TDySetup_Salinity_MPFAO` (2277-2328, 2388-2455, 2457-2521). -/
def setupAllocs (m : Mode) (p : Has) : List Name :=
  .ctx :: (meshAllocs ++ [.vel, .vel_count] ++ materialAllocs p ++ matrixAllocs m ++ valueAllocs m)

/-- `TDyMeshDestroy`, tdymesh.c 813-907. -/
def meshFrees : List Name :=
  [.c_id, .c_global_id, .c_natural_id, .c_is_local, .c_num_vertices, .c_num_edges, .c_num_faces,
  .c_num_neighbors, .c_num_subcells, .c_vertex_offset, .c_edge_offset, .c_face_offset,
  .c_neighbor_offset, .c_vertex_ids, .c_edge_ids, .c_neighbor_ids, .c_face_ids, .c_centroid,
  .c_volume, .s_nu_vector, .s_nu_star_vector, .s_variable_continuity_coordinates,
  .s_face_centroid, .s_vertices_coordinates, .s_id, .s_num_nu_vectors, .s_num_vertices,
  .s_num_faces, .s_type, .s_nu_vector_offset, .s_vertex_offset, .s_face_offset, .s_face_ids,
  .s_is_face_up, .s_face_unknown_idx, .s_face_flux_idx, .s_face_area, .s_vertex_ids, .s_T, .v_id,
  .v_global_id, .v_num_internal_cells, .v_num_edges, .v_num_faces, .v_num_boundary_faces,
  .v_is_local, .v_coordinate, .v_edge_offset, .v_face_offset, .v_internal_cell_offset,
  .v_subcell_offset, .v_boundary_face_offset, .v_edge_ids, .v_face_ids, .v_subface_ids,
  .v_internal_cell_ids, .v_subcell_ids, .v_boundary_face_ids, .e_id, .e_global_id, .e_num_cells,
  .e_vertex_ids, .e_is_local, .e_is_internal, .e_cell_offset, .e_cell_ids, .e_centroid,
  .e_normal, .e_length, .f_id, .f_num_vertices, .f_num_edges, .f_num_cells, .f_is_local,
  .f_is_internal, .f_vertex_offset, .f_cell_offset, .f_edge_offset, .f_cell_ids, .f_edge_ids,
  .f_vertex_ids, .f_area, .f_centroid, .f_normal, .closureSize, .closure, .mesh]

/-- `TDyDestroy_MPFAO`, tdympfao.c 454-568. -/
def contextFrees : List Name :=
  [.vel, .vel_count, .source_sink, .energy_source_sink, .salinity_source_sink, .V, .X, .N, .Kr,
  .dKr_dS, .S, .dS_dP, .d2S_dP2, .dS_dT, .Sr, .rho, .drho_dP, .d2rho_dP2, .vis, .dvis_dP,
  .d2vis_dP2, .h, .dh_dP, .dh_dT, .drho_dT, .u, .du_dP, .du_dT, .dvis_dT, .m_nacl, .Kr_bnd,
  .dKr_dS_bnd, .S_bnd, .dS_dP_bnd, .d2S_dP2_bnd, .P_bnd, .rho_bnd, .vis_bnd, .T_bnd, .h_bnd,
  .Psi_bnd, .Trans, .Trans_mat, .P_vec, .TtimesP_vec, .GravDisVec, .subc_Gmatrix,
  .Temp_subc_Gmatrix, .Temp_Trans, .Temp_Trans_mat, .Temp_P_vec, .Temp_TtimesP_vec,
  .Psi_subc_Gmatrix, .Psi_Trans, .Psi_Trans_mat, .Psi_vec, .TtimesPsi_vec, .c_soil, .rho_soil,
  .D_saline, .mu_saline]

/-- The releases inside `if (pointer)`, tdympfao.c 454-562. -/
def guarded (x : Name) : Bool :=
  decide (x  ∈ [.vel, .vel_count, .source_sink, .energy_source_sink, .salinity_source_sink,
  .T_bnd, .h_bnd, .Psi_bnd, .Trans, .Trans_mat, .P_vec, .TtimesP_vec, .GravDisVec, .subc_Gmatrix,
  .Temp_subc_Gmatrix, .Temp_Trans, .Temp_Trans_mat, .Temp_P_vec, .Temp_TtimesP_vec,
  .Psi_subc_Gmatrix, .Psi_Trans, .Psi_Trans_mat, .Psi_vec, .TtimesPsi_vec, .c_soil, .rho_soil,
  .D_saline, .mu_saline])

/-- The sizes each pointer is released with, tdympfao.c 508-549 and tdymesh.c 903-904; all others are
single blocks. -/
def fshape (d : Dims) : Name → FShape
  | .Trans => .d3 d.nv d.nfv
  | .Temp_Trans => .d3 d.nv d.nfv
  | .Psi_Trans => .d3 d.nv d.nfv
  | .subc_Gmatrix => .d4 d.nc 8 3
  | .Temp_subc_Gmatrix => .d4 d.nc 8 3
  | .Psi_subc_Gmatrix => .d4 d.nc 8 3
  | .closure => .d2 d.pts
  | _ => .d1

/-- `TDyDestroy_MPFAO`, tdympfao.c 449-572: the context, then the mesh, then the structure. -/
def destroyFrees : List Name := contextFrees ++ meshFrees ++ [.ctx]

/-- The heap after a context of MPFA-O was created, set up and destroyed. -/
def lifetime (d : Dims) (m : Mode) (p : Has) (h : Heap) : Res Heap :=
  let (c, h) := allocAll (shape d) (setupAllocs m p) (cleared, h)
  freeAll (fshape d) guarded destroyFrees c h

/-! ## The arrays of a local problem -/

/-- Numbers of internal fluxes, of boundary fluxes with given pressures and without (`du`, `dd`, `uu`,
`ud`: up and down), of cells and of boundary faces at a vertex. -/
structure LDims where
  (ni du dd uu ud np nb : Nat)

/-- The arrays of `ComputeTransmissibilityMatrix_ForNonCornerVertex`, tdympfao.c 1126-1513. -/
inductive LName where
  | Gmatrix | Fup_all | Cup_all | Fdn_all | Cdn_all | AINBC | BINBC | CupINBC | CupDBC | CdnDBC
  | AinvB | CupIn | CupBC | CdnBC | Fup_in | Fup_dir | Fup_neu | Fdn_in | Fdn_dir | Fdn_neu
  | Cup_11 | Cup_12 | Cup_13 | Cup_21 | Cup_22 | Cup_23 | Cup_31 | Cup_32 | Cup_33 | Cdn_11
  | Cdn_12 | Cdn_13 | Cdn_21 | Cdn_22 | Cdn_23 | Cdn_31 | Cdn_32 | Cdn_33
  deriving DecidableEq

/-- tdympfao.c 1205-1222, 902-912, 941-943. -/
def lshape (l : LDims) : LName → Shape
  | .Gmatrix => .d2 3 3
  | .Fup_all => .d2 (l.ni + l.du + l.uu) l.np
  | .Cup_all => .d2 (l.ni + l.du + l.uu) (l.ni + l.nb)
  | .Fdn_all => .d2 (l.ni + l.dd + l.ud) l.np
  | .Cdn_all => .d2 (l.ni + l.dd + l.ud) (l.ni + l.nb)
  | .AINBC => .d1 ((l.ni + (l.uu + l.ud)) * (l.ni + (l.uu + l.ud)))
  | .BINBC => .d1 ((l.ni + (l.uu + l.ud)) * (l.np + (l.du + l.dd)))
  | .CupINBC => .d1 ((l.ni + (l.uu + l.ud)) * (l.ni + (l.uu + l.ud)))
  | .CupDBC => .d1 (l.du * l.ni)
  | .CdnDBC => .d1 (l.dd * l.ni)
  | .AinvB => .d1 ((l.ni + (l.uu + l.ud)) * (l.np + (l.du + l.dd)))
  | .CupIn => .d1 ((l.ni + (l.uu + l.ud)) * (l.np + (l.du + l.dd)))
  | .CupBC => .d1 (l.du * (l.np + (l.du + l.dd)))
  | .CdnBC => .d1 (l.dd * (l.np + (l.du + l.dd)))
  | .Fup_in => .d2 l.ni l.np
  | .Fup_dir => .d2 l.du l.np
  | .Fup_neu => .d2 l.uu l.np
  | .Fdn_in => .d2 l.ni l.np
  | .Fdn_dir => .d2 l.dd l.np
  | .Fdn_neu => .d2 l.ud l.np
  | .Cup_11 => .d2 l.ni l.ni
  | .Cup_12 => .d2 l.ni (l.du + l.dd)
  | .Cup_13 => .d2 l.ni (l.uu + l.ud)
  | .Cup_21 => .d2 l.du l.ni
  | .Cup_22 => .d2 l.du (l.du + l.dd)
  | .Cup_23 => .d2 l.du (l.uu + l.ud)
  | .Cup_31 => .d2 l.uu l.ni
  | .Cup_32 => .d2 l.uu (l.du + l.dd)
  | .Cup_33 => .d2 l.uu (l.uu + l.ud)
  | .Cdn_11 => .d2 l.ni l.ni
  | .Cdn_12 => .d2 l.ni (l.du + l.dd)
  | .Cdn_13 => .d2 l.ni (l.uu + l.ud)
  | .Cdn_21 => .d2 l.dd l.ni
  | .Cdn_22 => .d2 l.dd (l.du + l.dd)
  | .Cdn_23 => .d2 l.dd (l.uu + l.ud)
  | .Cdn_31 => .d2 l.ud l.ni
  | .Cdn_32 => .d2 l.ud (l.du + l.dd)
  | .Cdn_33 => .d2 l.ud (l.uu + l.ud)

/-- tdympfao.c 1205-1243: in the order of the allocations. -/
def localAllocs : List LName :=
  [.Gmatrix, .Fup_all, .Cup_all, .Fdn_all, .Cdn_all, .AINBC, .BINBC, .CupINBC, .CupDBC, .CdnDBC,
  .AinvB, .CupIn, .CupBC, .CdnBC, .Fup_in, .Fup_dir, .Fup_neu, .Fdn_in, .Fdn_dir, .Fdn_neu,
  .Cup_11, .Cup_12, .Cup_13, .Cup_21, .Cup_22, .Cup_23, .Cup_31, .Cup_32, .Cup_33, .Cdn_11,
  .Cdn_12, .Cdn_13, .Cdn_21, .Cdn_22, .Cdn_23, .Cdn_31, .Cdn_32, .Cdn_33]

/-- tdympfao.c 1468-1508: in the order of the releases. -/
def localFrees : List LName :=
  [.Gmatrix, .Fup_all, .Cup_all, .Fdn_all, .Cdn_all, .Fup_in, .Fup_dir, .Fup_neu, .Fdn_in,
  .Fdn_dir, .Fdn_neu, .Cup_11, .Cup_12, .Cup_13, .Cup_21, .Cup_22, .Cup_23, .Cup_31, .Cup_32,
  .Cup_33, .Cdn_11, .Cdn_12, .Cdn_13, .Cdn_21, .Cdn_22, .Cdn_23, .Cdn_31, .Cdn_32, .Cdn_33,
  .AinvB, .CupIn, .CupBC, .CdnBC, .AINBC, .BINBC, .CupINBC, .CupDBC, .CdnDBC]

/-- tdympfao.c 1468-1508: the sizes of the releases. -/
def lfshape (l : LDims) : LName → FShape
  | .Gmatrix => .d2 3
  | .Fup_all => .d2 (l.ni + l.du + l.uu)
  | .Cup_all => .d2 (l.ni + l.du + l.uu)
  | .Fdn_all => .d2 (l.ni + l.dd + l.ud)
  | .Cdn_all => .d2 (l.ni + l.dd + l.ud)
  | .AINBC => .d1
  | .BINBC => .d1
  | .CupINBC => .d1
  | .CupDBC => .d1
  | .CdnDBC => .d1
  | .AinvB => .d1
  | .CupIn => .d1
  | .CupBC => .d1
  | .CdnBC => .d1
  | .Fup_in => .d2 l.ni
  | .Fup_dir => .d2 l.du
  | .Fup_neu => .d2 l.uu
  | .Fdn_in => .d2 l.ni
  | .Fdn_dir => .d2 l.dd
  | .Fdn_neu => .d2 l.ud
  | .Cup_11 => .d2 l.ni
  | .Cup_12 => .d2 l.ni
  | .Cup_13 => .d2 l.ni
  | .Cup_21 => .d2 l.du
  | .Cup_22 => .d2 l.du
  | .Cup_23 => .d2 l.du
  | .Cup_31 => .d2 l.uu
  | .Cup_32 => .d2 l.uu
  | .Cup_33 => .d2 l.uu
  | .Cdn_11 => .d2 l.ni
  | .Cdn_12 => .d2 l.ni
  | .Cdn_13 => .d2 l.ni
  | .Cdn_21 => .d2 l.dd
  | .Cdn_22 => .d2 l.dd
  | .Cdn_23 => .d2 l.dd
  | .Cdn_31 => .d2 l.ud
  | .Cdn_32 => .d2 l.ud
  | .Cdn_33 => .d2 l.ud

/-- `ComputeTransmissibilityMatrix_ForNonCornerVertex`: what it does to the heap.  `ComputeCandFmatrix`
allocates and releases one more matrix in between (1018, 1072). -/
def localProblem (l : LDims) (h : Heap) : Res Heap :=
  let (c, h) := allocAll (lshape l) localAllocs (cleared, h)
  let (g, h) := alloc2 3 3 h
  (free2 3 g h).bind (freeAll (lfshape l) (fun _ => false) localFrees c)

/-- `TDyMPFAORecoverVelocity_InternalVertices` and its counterparts (tdympfao_utils.c 134, 253, 568;
tdympfao_steady.c 36, 119): a matrix is allocated and never released. -/
def recoverVelocity (h : Heap) : Heap := (alloc2 3 3 h).2

end TDy.Mem
