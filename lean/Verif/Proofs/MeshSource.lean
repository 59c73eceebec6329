import Verif.Proofs.Lifecycle
import Verif.Spec.MeshSource

/-! Helper lemmas for `Verif/Props/MeshSource.lean`. -/

namespace TDy.Proofs

open TDy

/-- The mesh and the registered constructor are untouched. -/
def SameMesh (s s' : State) : Prop := s'.dm = s.dm ∧ s'.createDm = s.createDm

theorem setDisc_mesh (s : State) (d : Disc) : Ends (setDisc s d) (SameMesh s) := by
  unfold setDisc
  split
  · exact ⟨rfl, rfl⟩
  · split <;> exact ⟨rfl, rfl⟩

theorem setMode_mesh (s : State) (m : Mode) : Ends (setMode s m) (SameMesh s) := by
  unfold setMode
  dsimp only
  split
  · exact (setDisc_mesh _ _).mono fun s' h => ⟨h.1, h.2⟩
  · exact ⟨rfl, rfl⟩

theorem readCommandLine_mesh (s : State) (c : CmdLine) :
    Ends (readCommandLine s c) (SameMesh s) := by
  unfold readCommandLine
  split
  · exact ⟨rfl, rfl⟩
  · dsimp only
    refine Ends.bindIgnore (P := SameMesh s) ?_ ?_
    · split
      · exact (setMode_mesh _ _).mono fun s' h => ⟨h.1, h.2⟩
      · exact ⟨rfl, rfl⟩
    · intro s1 h1
      refine Ends.bindIgnore (P := SameMesh s) ?_ ?_
      · split
        · exact (setDisc_mesh _ _).mono fun s' h => ⟨h.1.trans h1.1, h.2.trans h1.2⟩
        · exact h1
      · intro s2 h2
        split <;> exact ⟨h2.1, h2.2⟩

/-- On success the mesh flags are those of the command line. -/
theorem readCommandLine_meshFlags {s s' : State} {c : CmdLine}
    (h : readCommandLine s c = .ok s') :
    s'.opts.readMesh = c.readMesh ∧ s'.opts.readPflotranMesh = c.readPflotranMesh := by
  unfold readCommandLine at h
  split at h
  · cases h
  · dsimp only at h
    generalize (if ¬(readValues s.opts c).mode = c.mode.getD s.opts.mode then _ else _) = r at h
    cases r with
    | ub => cases h
    | ok s1 | err s1 =>
      all_goals
        simp only [Res.bindIgnore] at h
        split at h
        · split at h
          · cases h
          · cases h; exact ⟨rfl, rfl⟩
        · split at h
          · cases h
          · cases h; exact ⟨rfl, rfl⟩
        · cases h

/-- What a successful `TDySetFromOptions` does with the mesh. -/
theorem setFromOptions_mesh {s s' : State} {c : CmdLine} {e : OptEnv}
    (h : setFromOptions s c e = .ok s') :
    s'.createDm = s.createDm ∧
    s'.dm = some (if c.readPflotranMesh then .pflotran
      else s.dm.getD (Spec.newMesh c s.createDm e.fortran)) := by
  unfold setFromOptions at h
  split at h
  · cases h
  · have a := readCommandLine_mesh s c
    cases hr : readCommandLine s c with
    | err s1 => rw [hr] at h; cases h
    | ub => rw [hr] at h; cases h
    | ok s1 =>
      have b := readCommandLine_meshFlags hr
      rw [hr] at h a
      simp only [Res.bind] at h
      obtain ⟨a1, a2⟩ := a
      split at h
      · cases h
      · split at h
        · cases h
        · simp only [chooseDm, b.1, b.2, a1, a2] at h
          cases hp : c.readPflotranMesh
          · simp only [hp, Bool.false_eq_true, if_false] at h ⊢
            cases hd : s.dm with
            | some d =>
              simp only [hd, Option.isSome_some, if_true] at h
              cases h
              exact ⟨rfl, rfl⟩
            | none =>
              simp only [hd, Option.isSome_none, Bool.false_eq_true, if_false] at h
              split at h
              · rename_i heq
                split at heq
                · cases heq
                · split at heq
                  · cases heq
                  · cases heq
                    cases h
                    refine ⟨rfl, ?_⟩
                    simp only [Option.getD_none, Spec.newMesh, hp]
                    cases c.readMesh <;> cases s.createDm <;> cases e.fortran <;> rfl
              · cases h
              · cases h
          · simp only [hp, if_true] at h ⊢
            split at h
            · rename_i heq
              split at heq
              · cases heq
              · split at heq
                · cases heq
                · cases heq; cases h; exact ⟨rfl, rfl⟩
            · cases h
            · cases h

/-- A failed `TDySetFromOptions` leaves mesh and constructor alone. -/
theorem setFromOptions_err_mesh {s s' : State} {c : CmdLine} {e : OptEnv}
    (h : setFromOptions s c e = .err s') : SameMesh s s' := by
  unfold setFromOptions at h
  split at h
  · cases h; exact ⟨rfl, rfl⟩
  · have a := readCommandLine_mesh s c
    cases hr : readCommandLine s c with
    | err s1 => rw [hr] at h a; cases h; exact a
    | ub => rw [hr] at h; cases h
    | ok s1 =>
      rw [hr] at h a
      simp only [Res.bind] at h
      split at h
      · cases h
      · split at h
        · cases h; exact a
        · split at h
          · cases h
          · rename_i heq
            cases h
            simp only [chooseDm] at heq
            repeat' split at heq
            all_goals first | (cases heq; done) | (cases heq; exact ⟨a.1, a.2⟩)
          · cases h

theorem setup_mesh (s : State) (e : SetupEnv) : Ends (setup s e) (SameMesh s) := by
  unfold setup
  dsimp only
  repeat' split
  all_goals first | trivial | exact ⟨rfl, rfl⟩

theorem lastConstructor_append (h : Spec.History) (x : Call × Status) :
    Spec.lastConstructor (h ++ [x]) = (Spec.lastConstructor [x]).or (Spec.lastConstructor h) := by
  induction h with
  | nil => simp [Spec.lastConstructor]
  | cons y h ih =>
    obtain ⟨c, st⟩ := y
    cases c <;> cases st <;>
      simp only [List.cons_append, Spec.lastConstructor, ih] <;>
      rw [Option.or_assoc]

/-- The object's constructor is the one registered last, and it has a mesh only if
`TDySetFromOptions` has succeeded. -/
theorem mesh_inv {h : Spec.History} {s : State} (r : Reaches State.create h s) :
    s.createDm = Spec.lastConstructor h ∧ (s.dm ≠ none → Spec.OptionsSucceeded h) := by
  induction r with
  | nil => exact ⟨rfl, fun h => absurd rfl h⟩
  | @ok s' s'' h c hr hstep i =>
    rw [lastConstructor_append]
    have keep : SameMesh s' s'' →
        (s''.createDm = Spec.lastConstructor h ∧
          (s''.dm ≠ none → Spec.OptionsSucceeded (h ++ [(c, .success)]))) :=
      fun k => ⟨k.2.trans i.1, fun x => OptionsSucceeded.append (i.2 (k.1 ▸ x))⟩
    cases c with
    | setMode m => simpa [Spec.lastConstructor] using keep ((setMode_mesh s' m).of_ok hstep)
    | setDisc d => simpa [Spec.lastConstructor] using keep ((setDisc_mesh s' d).of_ok hstep)
    | setDMConstructor id =>
      simp only [step, setDMConstructor] at hstep
      split at hstep
      · cases hstep
      · split at hstep
        · cases hstep
        · cases hstep
          exact ⟨by simp [Spec.lastConstructor], fun x => OptionsSucceeded.append (i.2 x)⟩
    | setWaterDensityType t =>
      simp only [step, setWaterDensityType] at hstep
      cases hstep
      simpa [Spec.lastConstructor] using keep ⟨rfl, rfl⟩
    | setFromOptions c e =>
      have k := setFromOptions_mesh hstep
      exact ⟨by simpa [Spec.lastConstructor] using k.1.trans i.1,
        fun _ => ⟨c, e, mem_last _ _⟩⟩
    | setup e => simpa [Spec.lastConstructor] using keep ((setup_mesh s' e).of_ok hstep)
    | _ =>
      have k := (other_step s' _ trivial).of_ok hstep
      simpa [Spec.lastConstructor] using keep (by rw [k]; exact ⟨rfl, rfl⟩)
  | @err s' s'' h c hr hstep i =>
    rw [lastConstructor_append]
    have keep : SameMesh s' s'' →
        (s''.createDm = Spec.lastConstructor h ∧
          (s''.dm ≠ none → Spec.OptionsSucceeded (h ++ [(c, .failure)]))) :=
      fun k => ⟨k.2.trans i.1, fun x => OptionsSucceeded.append (i.2 (k.1 ▸ x))⟩
    cases c with
    | setMode m => simpa [Spec.lastConstructor] using keep ((setMode_mesh s' m).of_err hstep)
    | setDisc d => simpa [Spec.lastConstructor] using keep ((setDisc_mesh s' d).of_err hstep)
    | setDMConstructor id =>
      simp only [step, setDMConstructor] at hstep
      split at hstep
      · cases hstep; simpa [Spec.lastConstructor] using keep ⟨rfl, rfl⟩
      · split at hstep
        · cases hstep; simpa [Spec.lastConstructor] using keep ⟨rfl, rfl⟩
        · cases hstep
    | setWaterDensityType t =>
      simp only [step, setWaterDensityType] at hstep
      cases hstep
    | setFromOptions c e =>
      simpa [Spec.lastConstructor] using keep (setFromOptions_err_mesh hstep)
    | setup e => simpa [Spec.lastConstructor] using keep ((setup_mesh s' e).of_err hstep)
    | _ =>
      have k := (other_step s' _ trivial).of_err hstep
      simpa [Spec.lastConstructor] using keep (by rw [k]; exact ⟨rfl, rfl⟩)

end TDy.Proofs
