import Verif.Sparse.StepWitness

/-!
# C104: the value when nothing is left, and when more is asked for than there is
-/

namespace Yac.Sparse

open Matrix
open Yac.Solver (Mat)
open Yac.Marg (block)

/-- **C104, nothing left.**  When every unknown is marginalised, the value is zero: the logarithm of the determinant of
the covariance of no unknown. -/
theorem C104_none_left (o : Opts) (qr : Spqr) (svd : Svd3) (junk : ℕ → ℝ × ℕ) (J : Mat ℝ) (m n : ℕ) (hJ : Clean J m n)
    (tol : ℝ) (htol : QrTol o tol) : logDetCovar o qr svd junk J m n n = .ok 0 := by
  obtain ⟨M', D, h1, h2, -⟩ := convert_clean hJ junk
  unfold logDetCovar
  rw [h1, okb, h2, okb]
  unfold analyzeMarginal
  have hq : qrTolerance { o with columnScaling := false } = .ok tol := qr_tol htol
  have hf : ∃ cf, factorize { o with columnScaling := false } qr none D m n n = .ok cf := by
    unfold factorize
    by_cases h0 : n = 0
    · exact ⟨_, if_pos h0⟩
    · rw [if_neg h0, if_pos le_rfl]
      simp only
      rw [hq, okb, if_pos (show cached none (patternOf D m n) = patternOf D m n from rfl)]
      exact ⟨_, rfl⟩
  obtain ⟨cf, hf⟩ := hf
  rw [hf, okb, if_neg (lt_irrefl n), okb]

/-- **C104, more than there is.**  More columns to marginalise than the Jacobian has stop the program. -/
theorem C104_too_many (o : Opts) (qr : Spqr) (svd : Svd3) (junk : ℕ → ℝ × ℕ) (J : Mat ℝ) (m n j : ℕ) (hJ : Clean J m n)
    (hj : n < j) : logDetCovar o qr svd junk J m n j = .error .fatal := by
  obtain ⟨M', D, h1, h2, -⟩ := convert_clean hJ junk
  unfold logDetCovar
  rw [h1, okb, h2, okb]
  unfold analyzeMarginal factorize
  rw [if_neg (by omega), if_neg (by omega)]
  rfl

/-- A Jacobian of three rows and two columns. -/
example (qr : Spqr) (svd : Svd3) (junk : ℕ → ℝ × ℕ) :
    logDetCovar defaults qr svd junk Witness.A1 3 2 2 = .ok 0 ∧ logDetCovar defaults qr svd junk Witness.A1 3 2 3 = .error .fatal :=
  ⟨C104_none_left defaults qr svd junk Witness.A1 3 2 Witness.A1_clean macheps Witness.defaults_tol,
    C104_too_many defaults qr svd junk Witness.A1 3 2 3 Witness.A1_clean (by norm_num)⟩

end Yac.Sparse
