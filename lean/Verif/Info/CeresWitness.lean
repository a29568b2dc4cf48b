import Verif.Info.CeresProps

/-!
# Concrete cases for C101

Two cameras with two intrinsic parameters each (the second fixed), the extrinsics of the first fixed.
-/

namespace Yac.Info.CeresWitness
open Yac.Info Yac.Solver

/-- Cameras 0 and 1, extrinsics 2 and 3. -/
def blk : Nat → Blk
  | 0 => ⟨false, 2, 2⟩
  | 1 => ⟨true, 2, 2⟩
  | 2 => ⟨true, 6, 7⟩
  | _ => ⟨false, 6, 7⟩

/-- Independent parameters, with variance `p + 2`. -/
def S (p q : Nat) : Mat ℝ := fun a b => if p = q ∧ a = b then (p : ℝ) + 2 else 0

noncomputable def c : CeresCov Nat := ⟨fun _ => true, fun p q => some (S p q), fun p q => some (S p q)⟩

theorem cov (params : List Nat) : Covariance blk c params S where
  computed := fun _ _ => rfl
  tangent := fun _ _ _ _ => rfl
  ambient := fun _ _ _ _ _ _ => rfl
  symm := by
    intro p _ q _ a b
    unfold S
    by_cases h : p = q ∧ a = b
    · rw [if_pos h, if_pos ⟨h.1.symm, h.2.symm⟩, h.1]
    · rw [if_neg h, if_neg (fun e => h ⟨e.1.symm, e.2.symm⟩)]

theorem plain (params : List Nat) : Plain blk params := by
  intro p _
  match p with
  | 0 => exact Or.inr rfl
  | 1 => exact Or.inr rfl
  | 2 => exact Or.inl rfl
  | _ + 3 => exact Or.inl rfl

theorem det (params : List Nat) : 0 < (joint blk params S).det := by
  have : joint blk params S = Matrix.diagonal (fun x => (x.1.1 : ℝ) + 2) := by
    ext ⟨⟨p, hp⟩, a⟩ ⟨⟨q, hq⟩, b⟩
    unfold joint S Matrix.diagonal
    simp only [Matrix.of_apply]
    by_cases h : p = q
    · subst h
      by_cases hab : a = b
      · subst hab; simp
      · have : ¬ (a : Nat) = b := fun e => hab (Fin.ext e)
        simp [hab, this]
    · rw [if_neg (fun e => h e.1), if_neg]
      intro e
      exact h (congrArg Subtype.val (Sigma.mk.inj e).1)
  rw [this, Matrix.det_diagonal]
  exact Finset.prod_pos (fun _ _ => by positivity)

/-- C101_covariance. -/
example : ∃ M, ceresCovariance blk c [0, 3] = .ok (some (8, M)) ∧ M 0 0 = 2 ∧ M 2 2 = 5 ∧ M 0 2 = 0 := by
  obtain ⟨M, h1, h2⟩ := C101_covariance blk c [0, 3] S (cov _) (plain _) (by simp) (by simp [blk])
  refine ⟨M, h1, ?_, ?_, ?_⟩
  · have := h2 0 (by simp) 0 (by simp) 0 0 (by simp [blk]) (by simp [blk])
    simpa [offset, dim, S] using this
  · have := h2 3 (by simp) 3 (by simp) 0 0 (by simp [blk]) (by simp [blk])
    simp [offset, dim, S, blk] at this
    rw [this]; norm_num
  · have := h2 0 (by simp) 3 (by simp) 0 0 (by simp [blk]) (by simp [blk])
    simpa [offset, dim, S, blk] using this

/-- C101_info, C101_gain: eight free components. -/
example : ∃ i e : ℝ, calcInfo blk c [0, 1] [2, 3] = .ok (some (i, e)) ∧
    i = Real.logb 2 (joint blk [3, 0] S).det :=
  ⟨_, _, C101_info blk c [0, 1] [2, 3] (by simp) S [3, 0] (by
    intro p
    match p with
    | 0 => simp [blk]
    | 1 => simp [blk]
    | 2 => simp [blk]
    | 3 => simp [blk]
    | _ + 4 => simp) (by simp) (cov _) (plain _) (det _), rfl⟩

/-- C101_fails. -/
example : calcInfo blk { c with compute := fun _ => false } [0, 1] [2, 3] = .ok none :=
  C101_fails _ _ _ _ (fun _ => rfl)

theorem det6 : 0 < (corner 6 (S 3 3)).det := by
  have : corner 6 (S 3 3) = Matrix.diagonal (fun _ => 5) := by
    ext a b
    unfold corner S Matrix.diagonal
    simp only [Matrix.of_apply, true_and]
    by_cases hab : a = b
    · subst hab; norm_num
    · have : ¬ (a : Nat) = b := fun e => hab (Fin.ext e)
      simp [hab, this]
  rw [this, Matrix.det_diagonal]
  simp

/-- C101_mocap. -/
example : ∃ i e : ℝ, mocapInfo blk c 3 = .ok (some (i, e)) :=
  ⟨_, _, C101_mocap blk c 3 rfl S (cov _) det6⟩

/-- C101_singular_refuted: all variances 0. -/
example : calcInfo blk ⟨fun _ => true, fun _ _ => some (fun _ _ => 0), fun _ _ => some (fun _ _ => 0)⟩ [0, 1] [2, 3] =
    .ok (some (⊥, ⊥)) := by
  refine C101_singular_refuted blk _ [0, 1] [2, 3] (by simp) (fun _ _ _ _ => 0)
    ⟨fun _ _ => rfl, fun _ _ _ _ => rfl, fun _ _ _ _ _ _ => rfl, fun _ _ _ _ _ _ => rfl⟩ (plain _) ?_
  have hne : Nonempty ((p : {p // p ∈ infoParams blk [0, 1] [2, 3]}) × Fin (blk p).size) :=
    ⟨⟨⟨0, by simp [infoParams, blk]⟩, ⟨0, by simp [blk]⟩⟩⟩
  exact Matrix.det_zero

/-- C101_fixed_refuted: the variance 2 of camera 0 is overwritten. -/
example : ∃ M, ceresCovariance blk ⟨fun _ => true, fun _ _ => none,
      fun p q => if p = 0 ∧ q = 0 then some (S 0 0) else some (fun _ _ => 0)⟩ [0, 1] = .ok (some (2, M)) ∧
    ∀ a b, M a b = 0 :=
  C101_fixed_refuted blk _ 0 1 (by simp) 2 (by simp) rfl rfl (fun _ => rfl) (S 0 0) (by simp) (by simp) (by simp)

/-- C101_mocap_fixed_refuted. -/
example : mocapInfo blk c 2 = .error .oob := C101_mocap_fixed_refuted blk c 2 rfl (fun _ => rfl) (S 2 2) rfl

end Yac.Info.CeresWitness
