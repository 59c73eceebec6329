import Verif.Model.Fvtpf
import Mathlib.Analysis.Calculus.Deriv.Basic

/-! # Vocabulary for the properties of the two-point flux method -/

namespace TDy.Fvtpf.Spec

open TDy.Fvtpf TDy.Geo

noncomputable section

/-- Two resistances in series: the conductance of a layer of thickness `dUp` and permeability
`Kup` followed by one of thickness `dDn` and permeability `Kdn`. -/
def series (dUp dDn Kup Kdn : ℝ) : ℝ := 1/(dUp/Kup + dDn/Kdn)

/-- The same face seen from the other side. -/
def swapGeom (g : Geom) : Geom :=
  { dUp := g.dDn, dDn := g.dUp, u := ⟨-g.u.x, -g.u.y, -g.u.z⟩, area := g.area }

/-- The same face seen from the other side. -/
def swapFace (f : Face) : Face := { f with up := f.dn, dn := f.up, geom := swapGeom f.geom }

/-- Mass of water in a cell. -/
def mass (c : Ctx) (i : Nat) : ℝ := (c.cells i).rho*(c.por i*(c.cells i).S*c.vol i)

/-- An internal face that this rank works on. -/
def IsInternal (c : Ctx) (i : Nat) : Prop := (c.face i).isLocal = true ∧ (c.face i).isInternal = true

/-- A boundary face of this rank with flux through it. -/
def IsOpenBoundary (c : Ctx) (i : Nat) : Prop :=
  (c.face i).isLocal = true ∧ (c.face i).isInternal = false ∧ (c.face i).bc ≠ .neumann

/-- Cell ids of internal faces are cells of the mesh, boundary faces have a local cell of the mesh
below them. -/
structure WellFormed (c : Ctx) : Prop where
  internal : ∀ i < c.numFaces, IsInternal c i →
    0 ≤ (c.face i).up ∧ (c.face i).up < c.numCells ∧ 0 ≤ (c.face i).dn ∧ (c.face i).dn < c.numCells
  boundary : ∀ i < c.numFaces, IsOpenBoundary c i →
    0 ≤ (c.face i).dn ∧ (c.face i).dn < c.numCells ∧ c.isLocal (c.face i).dn.toNat = true

/-- The state of a side as a function of its pressure, whose derivative fields are the derivatives
at pressure `p`. -/
structure Smooth (s : ℝ → Side) (p : ℝ) : Prop where
  P : ∀ x, (s x).P = x
  S : HasDerivAt (fun x => (s x).S) (s p).dSdP p
  Kr : HasDerivAt (fun x => (s x).Kr) ((s p).dKrdS*(s p).dSdP) p
  vis : HasDerivAt (fun x => (s x).vis) (s p).dvis p
  rho : HasDerivAt (fun x => (s x).rho) (s p).drho p

/-- Physically meaningful state of a side. -/
structure Physical (s : Side) : Prop where
  Kr : 0 ≤ s.Kr
  vis : 0 < s.vis
  rho : 0 < s.rho

/-- Physically meaningful face geometry. -/
structure GoodGeom (g : Geom) : Prop where
  dUp : 0 ≤ g.dUp
  dDn : 0 ≤ g.dDn
  dist : 0 < g.dUp + g.dDn
  area : 0 ≤ g.area
  u : g.u.x^2 + g.u.y^2 + g.u.z^2 = 1

/-- Positive permeability. -/
structure GoodPerm (K : Perm) : Prop where
  xx : 0 < K.xx
  yy : 0 < K.yy
  zz : 0 < K.zz

/-- The context in which cell `j` has the state `s j` at pressure `U j`. -/
def ctxAt (c : Ctx) (s : Nat → ℝ → Side) (U : Nat → ℝ) : Ctx :=
  { c with cells := fun j => s j (U j) }

/-- The constitutive functions return their own derivatives near pressure `p`. -/
structure SmoothLaw (Pref : ℝ) (l : Law) (p : ℝ) : Prop where
  Sr : l.Sr < 1
  sat : HasDerivAt (fun P => (l.sat (Pref - P)).S) (l.sat (Pref - p)).dS p
  kr : HasDerivAt (fun Se => (l.kr Se).k) (l.kr (((l.sat (Pref - p)).S - l.Sr)/(1 - l.Sr))).dk
    (((l.sat (Pref - p)).S - l.Sr)/(1 - l.Sr))
  rho : ∃ d, (l.rho p).dv = some d ∧ HasDerivAt (fun P => (l.rho P).v) d p
  vis : ∃ d, (l.vis p).dv = some d ∧ HasDerivAt (fun P => (l.vis P).v) d p

end

end TDy.Fvtpf.Spec
