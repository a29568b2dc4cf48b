import Verif.Shape.Model

/-!
# C146: every residual declares and reserves the sizes its evaluation uses
-/

namespace Yac.Shape

/-- The specification: the sizes declared to the optimiser are the lengths of the parameter vectors; the residual buffer has the
declared length; the Jacobian of each parameter has one row per residual and one column per number of the parameter, the
minimal one a column per degree of freedom. -/
structure Fits (R : Res) : Prop where
  declared : R.declared = R.blocks.map (·.len)
  rows : R.resLen = R.numRes
  jacs : R.jacs = R.blocks.map fun p => (R.numRes, p.len)
  minJacs : R.minJacs = R.blocks.map fun p => (R.numRes, p.localSize)

/-- The specification: an evaluation reads each parameter whole and fills each buffer with its shape. -/
structure Exact (R : Res) : Prop where
  reads : reads R = R.blocks.map (·.len)
  rows : resWrite R = R.numRes
  jacs : jacWrites R = R.jacs
  minJacs : minWrites R = R.minJacs

/-- The residuals the calibrators build, for a camera with `np` projection and `nd` distortion parameters. -/
inductive Built (np nd : Nat) : Res → Prop
  | reproj : Built np nd (mkReproj extrinsics pose (camera np nd))
  | fiducial : Built np nd (mkFiducial fiducial pose extrinsics extrinsics (camera np nd))
  | mocap : Built np nd (mkMocap pose pose extrinsics (camera np nd))
  | imu : Built np nd (mkImu pose speedBias pose speedBias timeDelay)

/-- **C146** Every parameter's vector has the length it gives as its global size, and no more degrees of freedom than that:
six for the seven numbers of a pose, all of them otherwise. -/
theorem C146_params (np nd : Nat) :
    ∀ p ∈ [pose, extrinsics, fiducial, corner, feature, camera np nd, speedBias, timeDelay],
      p.len = p.globalSize ∧
      (p.localSize = if p.type = "pose_t" ∨ p.type = "extrinsics_t" then p.len - 1 else p.len) := by
  intro p hp
  simp only [List.mem_cons, List.not_mem_nil, or_false] at hp
  rcases hp with h | h | h | h | h | h | h | h <;> subst h <;>
    simp [pose, extrinsics, fiducial, corner, feature, camera, speedBias, timeDelay, mkParam]

/-- **C146** With eight camera parameters every residual the calibrators build declares and reserves what its evaluation uses:
it enters the optimiser, and neither the optimiser's nor its own evaluation leaves a buffer. -/
theorem C146_built {np nd : Nat} (h8 : np + nd = 8) {R : Res} (h : Built np nd R) :
    Fits R ∧ Exact R ∧ addResidual R = .ok () ∧ eval R = .ok () ∧ evalResiduals R = .ok () ∧ ceresEvaluate R = .ok () := by
  have hc : camera np nd = camera 4 4 := by simp only [camera, h8]
  cases h
  · rw [hc]; exact ⟨⟨rfl, rfl, rfl, rfl⟩, ⟨rfl, rfl, rfl, rfl⟩, rfl, rfl, rfl, rfl⟩
  · rw [hc]; exact ⟨⟨rfl, rfl, rfl, rfl⟩, ⟨rfl, rfl, rfl, rfl⟩, rfl, rfl, rfl, rfl⟩
  · rw [hc]; exact ⟨⟨rfl, rfl, rfl, rfl⟩, ⟨rfl, rfl, rfl, rfl⟩, rfl, rfl, rfl, rfl⟩
  · exact ⟨⟨rfl, rfl, rfl, rfl⟩, ⟨rfl, rfl, rfl, rfl⟩, rfl, rfl, rfl, rfl⟩

/-- C146 witness: a pinhole camera with four distortion parameters. -/
example : 4 + 4 = 8 ∧ Built 4 4 (mkMocap pose pose extrinsics (camera 4 4)) := ⟨rfl, .mocap⟩

/-- **C146** An evaluation that is exact on buffers that fit stays inside them, whatever the residual. -/
theorem within_self (l : List Nat) : within l l = true := by
  induction l with
  | nil => rfl
  | cons a l ih => simp [within, ih]

theorem C146_safe {R : Res} (hf : Fits R) (he : Exact R) : eval R = .ok () ∧ evalResiduals R = .ok () := by
  have h1 : ¬ (R.jacs.length < R.blocks.length ∨ R.minJacs.length < R.blocks.length) := by
    rw [hf.jacs, hf.minJacs]; simp
  constructor
  · unfold eval
    rw [if_neg h1, he.reads, he.rows, he.jacs, he.minJacs, hf.rows, within_self, within_self, within_self]
    simp
  · unfold evalResiduals
    rw [he.reads, he.rows, hf.rows, within_self]
    simp

/-- C146 witness: the inertial residual fits and is exact. -/
example : Fits (mkImu pose speedBias pose speedBias timeDelay) ∧ Exact (mkImu pose speedBias pose speedBias timeDelay) :=
  ⟨⟨rfl, rfl, rfl, rfl⟩, ⟨rfl, rfl, rfl, rfl⟩⟩

/-- **C146** The full claim fails for a camera with any other number of parameters, which `add_camera` takes without a check:
the reprojection and mocap residuals declare eight, and the optimiser aborts on them. -/
theorem C146_camera_refuted {np nd : Nat} (h : np + nd ≠ 8) :
    addResidual (mkReproj extrinsics pose (camera np nd)) = .error .fatal ∧
    addResidual (mkMocap pose pose extrinsics (camera np nd)) = .error .fatal ∧
    ¬ Fits (mkReproj extrinsics pose (camera np nd)) ∧ ¬ Fits (mkMocap pose pose extrinsics (camera np nd)) := by
  have h' : ¬ (8 = np + nd) := fun e => h e.symm
  refine ⟨?_, ?_, fun hf => ?_, fun hf => ?_⟩
  · simp [addResidual, mkReproj, camera, mkParam, extrinsics, pose, h']
  · simp [addResidual, mkMocap, camera, mkParam, extrinsics, pose, h']
  · have := hf.declared; simp [mkReproj, camera, mkParam, extrinsics, pose, h'] at this
  · have := hf.declared; simp [mkMocap, camera, mkParam, extrinsics, pose, h'] at this

/-- C146 witness: five distortion parameters. -/
example : 4 + 5 ≠ 8 := by decide

/-- **C146** The full claim fails for the residual of the visual-inertial calibrator: it declares the camera's own number of
parameters and is accepted, but its evaluation reads and writes eight: with fewer it leaves the buffers, with more it does not
write the Jacobian it declares. -/
theorem C146_fiducial_refuted {np nd : Nat} (h : np + nd ≠ 8) :
    let R := mkFiducial fiducial pose extrinsics extrinsics (camera np nd)
    Fits R ∧ addResidual R = .ok () ∧ ¬ Exact R ∧
    (np + nd < 8 → eval R = .error .oob ∧ evalResiduals R = .error .oob ∧ ceresEvaluate R = .error .oob) ∧
    (8 < np + nd → eval R = .ok () ∧ ceresEvaluate R = .ok ()) := by
  refine ⟨⟨rfl, rfl, rfl, rfl⟩, by simp [addResidual, mkFiducial, camera, mkParam, extrinsics, pose, fiducial],
    fun he => ?_, fun hl => ?_, fun hl => ?_⟩
  · have := he.reads
    simp [reads, mkFiducial, camera, mkParam, extrinsics, pose, fiducial] at this
    exact h this.symm
  · have e : ¬ (8 ≤ np + nd) := by omega
    simp [eval, evalResiduals, ceresEvaluate, reads, within, mkFiducial, camera, mkParam, extrinsics, pose, fiducial, e]
  · have e : 8 ≤ np + nd := by omega
    have e2 : 16 ≤ 2 * (np + nd) := by omega
    simp [eval, ceresEvaluate, reads, within, resWrite, jacWrites, minWrites, area, mkFiducial, camera, mkParam, extrinsics, pose,
      fiducial, e, e2]

/-- C146 witness: no distortion parameters, and twelve. -/
example : (4 + 0 ≠ 8 ∧ 4 + 0 < 8) ∧ (4 + 12 ≠ 8 ∧ 8 < 4 + 12) := by decide

/-- **C146** The full claim fails for the two priors: the optimiser takes them, but its evaluation of the Jacobians dereferences a
null pointer, whatever the parameter. -/
theorem C146_prior_refuted (p : PShape) :
    addResidual (mkPrior p) = .ok () ∧ ceresEvaluate (mkPrior p) = .error .oob ∧
    addResidual (mkPosePrior pose) = .ok () ∧ ceresEvaluate (mkPosePrior p) = .error .oob := by
  refine ⟨?_, ?_, rfl, ?_⟩ <;> simp [addResidual, ceresEvaluate, mkPrior, mkPosePrior]

/-- **C146** A prior evaluates inside its own buffers exactly when the parameter has as many degrees of freedom as numbers; on a
pose it writes seven rows of seven into thirty-six places. -/
theorem C146_prior {p : PShape} (hl : p.len = p.globalSize) (hle : p.localSize ≤ p.globalSize) :
    (eval (mkPrior p) = .ok () ↔ p.localSize = p.globalSize) ∧
    (p.localSize < p.globalSize → eval (mkPrior p) = .error .oob) ∧ evalResiduals (mkPrior p) = .ok () := by
  have key : p.localSize < p.globalSize → p.localSize * p.localSize < p.globalSize * p.globalSize :=
    fun h => Nat.mul_lt_mul'' h h
  have bad : p.localSize < p.globalSize → eval (mkPrior p) = .error .oob := by
    intro h
    have := Nat.not_le.mpr (key h)
    simp [eval, mkPrior, reads, within, resWrite, jacWrites, minWrites, area, hl, this]
  refine ⟨⟨fun h => ?_, fun h => ?_⟩, bad, ?_⟩
  · by_contra hne
    rw [bad (by omega)] at h
    cases h
  · simp [eval, mkPrior, reads, within, resWrite, jacWrites, minWrites, area, hl, h]
  · simp [evalResiduals, mkPrior, reads, within, resWrite, hl]

/-- C146 witness: a camera's parameters, and a pose. -/
example : eval (mkPrior (camera 4 4)) = .ok () ∧ eval (mkPrior pose) = .error .oob ∧ eval (mkPosePrior pose) = .ok () ∧
    ¬ Fits (mkPosePrior pose) := ⟨rfl, rfl, rfl, fun h => absurd h.jacs (by decide)⟩

/-- **C146** Setting a parameter keeps its length and takes the numbers given; too short a vector is an error. -/
theorem C146_set_param (v w : List ℚ) :
    (v.length ≤ w.length → ∃ u, setParam v w = .ok u ∧ u.length = v.length ∧ ∀ i < v.length, u[i]? = w[i]?) ∧
    (w.length < v.length → setParam v w = .error .fatal) := by
  refine ⟨fun h => ⟨w.take v.length, ?_, ?_, ?_⟩, fun h => ?_⟩
  · unfold setParam; rw [if_neg (by omega)]
  · rw [List.length_take]; omega
  · intro i hi; rw [List.getElem?_take_of_lt hi]
  · unfold setParam; rw [if_pos h]

/-- C146 witness. -/
example : setParam [0, 0] [3, 4] = .ok [3, 4] ∧ setParam [0, 0] [3] = .error .fatal := by decide +kernel

end Yac.Shape
