import Verif.Model.MeshErrors

/-!
The reader's side of C174.
-/

namespace TDy.MeshErrors.Spec

/-- A set-up reports the errors of the creation of the mesh: whatever the rest of the set-up would do,
an error ends in an error. -/
def Reports (f : Setup) : Prop :=
  ∀ dim fails rest, (createFromPlex dim fails).2 = true → setup f dim fails rest = .err ()

/-- The function that creates the DM is heeded: if it fails, so does the caller. -/
def Heeds (m : Maker) : Prop := ∀ r : Made, r.fails = true → makeDm m r = .err ()

/-- What a call needs: the second of each pair reads what the first one made.  Closures are needed for
the type of the cells and for the connections, tables for what is stored in them, the local cells for
the local vertices, edges and faces, and finished tables for the subcells. -/
def needs : List (Stage × Stage) :=
  [(.strata, .allocateClosures), (.allocateClosures, .saveClosures), (.saveClosures, .allocateCells),
   (.saveClosures, .connectivity), (.allocateCells, .assignGeometry), (.allocateFaces, .assignGeometry),
   (.allocateVertices, .assignGeometry), (.allocateEdges, .assignGeometry),
   (.computeGeometry, .assignGeometry), (.allocateVertices, .connectivity),
   (.allocateEdges, .connectivity), (.connectivity, .localVertices), (.connectivity, .localFaces),
   (.localCells, .localVertices), (.localCells, .localEdges), (.localCells, .localFaces),
   (.region, .naturalIds), (.connectivity, .compressCells), (.connectivity, .compressVertices),
   (.connectivity, .compressFaces), (.allocateSubcells, .compressSubcells),
   (.compressVertices, .orderFaces), (.compressFaces, .orientCells), (.orientCells, .setupSubcells),
   (.orderFaces, .setupSubcells), (.compressSubcells, .setupSubcells)]

/-- Everything is made, once, and nothing is read before it is made. -/
def Complete (done : List Stage) : Prop :=
  (∀ s : Stage, s ∈ done) ∧ done.Nodup ∧
    ∀ p ∈ needs, done.idxOf p.1 < done.idxOf p.2

end TDy.MeshErrors.Spec
