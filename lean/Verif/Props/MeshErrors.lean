import Verif.Model.MeshErrors
import Verif.Spec.MeshErrors

/-!
# C174: an error while the mesh is made stops the set-up
-/

namespace TDy.MeshErrors.Props

open TDy.MeshErrors TDy.MeshErrors.Spec

theorem attempt_none (fails : Stage → Bool) (l : List Stage) (h : ∀ s ∈ l, fails s = false) :
    attempt fails l = (l, false) := by
  induction l with
  | nil => rfl
  | cons s l ih =>
    rw [attempt, h s (by simp), ih (fun t ht => h t (by simp [ht]))]
    rfl

theorem attempt_fails (fails : Stage → Bool) (pre : List Stage) (s : Stage) (post : List Stage)
    (h : ∀ t ∈ pre, fails t = false) (hs : fails s = true) :
    attempt fails (pre ++ s :: post) = (pre, true) := by
  induction pre with
  | nil => simp [attempt, hs]
  | cons t l ih =>
    rw [List.cons_append, attempt, h t (by simp), ih (fun u hu => h u (by simp [hu]))]
    rfl

/-- C174, the part that holds: on a three-dimensional mesh, if no call fails, no error is returned and
the rest of the set-up works on a mesh all of whose parts have been made, in the order in which
they are needed; and a failure of PETSc's own creation of a DM is reported.  Missing: all other
errors. -/
theorem C174_complete_partial (f : Setup) (fails : Stage → Bool) (rest : List Stage → Res Unit)
    (h : ∀ s, fails s = false) :
    (createFromPlex 3 fails).2 = false ∧ (∃ done, setup f 3 fails rest = rest done ∧ Complete done) ∧
      Heeds .petsc := by
  have hc : createFromPlex 3 fails = (some stages, false) := by
    simp [createFromPlex, attempt_none fails stages (fun s _ => h s)]
  refine ⟨by rw [hc], ⟨stages, by rw [setup, hc], ?_, by decide, by decide⟩, ?_⟩
  · intro s; cases s <;> decide
  intro r hr
  simp [makeDm, hr]

/-- C174: on a mesh that is not three-dimensional, such as PETSc's default mesh, an error is raised,
but the caller does not look at it and dereferences the NULL pointer of the mesh. -/
theorem C174_not_three_dimensional (f : Setup) (dim : Int) (hd : dim ≠ 3) (fails : Stage → Bool)
    (rest : List Stage → Res Unit) :
    (createFromPlex dim fails).2 = true ∧ setup f dim fails rest = .ub := by
  have hc : createFromPlex dim fails = (none, true) := by simp [createFromPlex, hd]
  exact ⟨by rw [hc], by rw [setup, hc]⟩

/-- C174: when a call fails while the mesh is made, an error is raised, the later calls are not
made, and the set-up goes on with the unfinished mesh, returning whatever its remaining lines
return. -/
theorem C174_unfinished_mesh_used (f : Setup) (fails : Stage → Bool) (rest : List Stage → Res Unit)
    (pre post : List Stage) (s : Stage) (hsplit : stages = pre ++ s :: post)
    (hpre : ∀ t ∈ pre, fails t = false) (hs : fails s = true) :
    (createFromPlex 3 fails).2 = true ∧ setup f 3 fails rest = rest pre := by
  have hc : createFromPlex 3 fails = (some pre, true) := by
    simp only [createFromPlex, ne_eq, not_true_eq_false, if_false, hsplit]
    rw [attempt_fails fails pre s post hpre hs]
  exact ⟨by rw [hc], by rw [setup, hc]⟩

/-- C174: so no set-up reports the errors of the creation of its mesh, and a failing function of the
user, in C or in Fortran, is not heeded: its caller goes on, with an uninitialised DM if none was
stored. -/
theorem C174_violated : (∀ f, ¬ Reports f) ∧ ¬ Heeds .user ∧ ¬ Heeds .fortran ∧
    ∀ m, m ≠ .petsc → makeDm m ⟨true, false⟩ = .ub ∧ makeDm m ⟨true, true⟩ = .ok () := by
  refine ⟨?_, ?_, ?_, ?_⟩
  · intro f h
    have h1 := C174_not_three_dimensional f 2 (by decide) (fun _ => false) (fun _ => .ok ())
    have := h 2 (fun _ => false) (fun _ => .ok ()) h1.1
    rw [h1.2] at this
    exact absurd this (by simp)
  · intro h; exact absurd (h ⟨true, false⟩ rfl) (by decide)
  · intro h; exact absurd (h ⟨true, false⟩ rfl) (by decide)
  · intro m hm
    cases m
    · decide
    · decide
    · exact absurd rfl hm

/-- A mesh with too many cells at a vertex fails when the connectivity is determined; the set-up then
works on a mesh without connectivity. -/
example : stages = stages.take 10 ++ Stage.connectivity :: stages.drop 11 ∧
    (∀ t ∈ stages.take 10, (decide (t = Stage.connectivity)) = false) := by decide

end TDy.MeshErrors.Props
