import Verif.Ctraj.Spec
import Verif.Imu.Kinematics
import Verif.Geom.RotProps
import Mathlib.Tactic.Linarith
import Mathlib.Tactic.FieldSimp
import Mathlib.Tactic.LinearCombination

namespace Yac.Ctraj
open Yac.Geom Yac.Residual Matrix

theorem norm3_pos {d : Vec3 ℝ} (h : d ≠ 0) : 0 < norm3 d := (normalized_unit d h).2.2

theorem normalized_eq {d : Vec3 ℝ} (h : d ≠ 0) : normalized d = (1 / norm3 d) • d := by
  obtain ⟨_, h2, h3⟩ := normalized_unit d h
  conv_rhs => rw [← h2]
  rw [smul_smul]
  have e : 1 / norm3 d * norm3 d = 1 := by field_simp
  have e2 : norm3 (norm3 d • normalized d) = norm3 d := by rw [h2]
  rw [e2, e, one_smul]

theorem norm3_smul (c : ℝ) (d : Vec3 ℝ) : norm3 (c • d) = |c| * norm3 d := by
  unfold norm3
  have : dot3 (c • d) (c • d) = c ^ 2 * dot3 d d := by
    simp [dot3]; ring
  rw [this, Real.sqrt_mul (sq_nonneg c), Real.sqrt_sq_eq_abs]

theorem dot3_gt {d : Vec3 ℝ} {a : ℝ} (ha : 0 ≤ a) : dot3 d d > a * a ↔ a < norm3 d := by
  rw [← norm3_sq]
  have := Imu.norm3_nonneg' d
  constructor
  · intro h
    nlinarith
  · intro h
    nlinarith

theorem norm3_ne {d : Vec3 ℝ} (h : 0 < norm3 d) : d ≠ 0 := by
  rintro rfl
  simp [norm3, dot3] at h

/-- The loop ends, with a step of length at most `π`, having taken off whole turns along the
step. -/
theorem unwrap_spec : ∀ (fuel : Nat) (d : Vec3 ℝ), norm3 d ≤ (2 * fuel + 1) * Real.pi →
    ∃ (k : Nat) (d' : Vec3 ℝ), unwrap fuel d = .ok d' ∧ d' = d - (2 * Real.pi * k) • normalized d ∧
      norm3 d' ≤ Real.pi
  | 0, d, h => by
      have hp := Real.pi_pos
      have h1 : ¬ dot3 d d > Real.pi * Real.pi := by
        rw [dot3_gt hp.le]
        simp at h
        linarith
      exact ⟨0, d, by rw [unwrap, if_neg h1], by simp, by simpa using h⟩
  | fuel + 1, d, h => by
      have hp := Real.pi_pos
      by_cases h1 : dot3 d d > Real.pi * Real.pi
      swap
      · refine ⟨0, d, by rw [unwrap, if_neg h1], by simp, ?_⟩
        rw [dot3_gt hp.le] at h1
        linarith
      rw [dot3_gt hp.le] at h1
      have hd : d ≠ 0 := norm3_ne (by linarith)
      have hn := norm3_pos hd
      have e : d - (2 * Real.pi) • normalized d = (1 - 2 * Real.pi / norm3 d) • d := by
        rw [normalized_eq hd, smul_smul, sub_smul, one_smul]
        congr 2
        field_simp
      have hne : norm3 ((1 - 2 * Real.pi / norm3 d) • d) = |norm3 d - 2 * Real.pi| := by
        rw [norm3_smul]
        have : norm3 d - 2 * Real.pi = (1 - 2 * Real.pi / norm3 d) * norm3 d := by field_simp
        rw [this, abs_mul, abs_of_pos hn]
      rw [unwrap, if_pos (by rw [gt_iff_lt, ← gt_iff_lt, dot3_gt hp.le]; exact h1), e]
      by_cases h3 : norm3 d ≤ 3 * Real.pi
      · have hsmall : |norm3 d - 2 * Real.pi| ≤ Real.pi := by
          rw [abs_le]; constructor <;> linarith
        have h4 : ¬ dot3 ((1 - 2 * Real.pi / norm3 d) • d) ((1 - 2 * Real.pi / norm3 d) • d) >
            Real.pi * Real.pi := by
          rw [dot3_gt hp.le, hne]
          linarith
        refine ⟨1, (1 - 2 * Real.pi / norm3 d) • d, ?_, by rw [← e]; simp, by rw [hne]; exact hsmall⟩
        cases fuel with
        | zero => rw [unwrap, if_neg h4]
        | succ f => rw [unwrap, if_neg h4]
      · have h3' : 3 * Real.pi < norm3 d := lt_of_not_ge h3
        have hc : 0 < 1 - 2 * Real.pi / norm3 d := by
          have : 2 * Real.pi / norm3 d < 1 := by
            rw [div_lt_one hn]; linarith
          linarith
        have hlen : norm3 ((1 - 2 * Real.pi / norm3 d) • d) = norm3 d - 2 * Real.pi := by
          rw [hne, abs_of_pos (by linarith)]
        obtain ⟨k, d', h5, h6, h7⟩ := unwrap_spec fuel ((1 - 2 * Real.pi / norm3 d) • d) (by
          rw [hlen]
          push_cast at h
          linarith)
        refine ⟨k + 1, d', h5, ?_, h7⟩
        have hne0 : (1 - 2 * Real.pi / norm3 d) • d ≠ 0 := norm3_ne (by rw [hlen]; linarith)
        have hnorm : normalized ((1 - 2 * Real.pi / norm3 d) • d) = normalized d := by
          rw [normalized_eq hne0, normalized_eq hd, hlen, smul_smul]
          congr 1
          have : norm3 d - 2 * Real.pi ≠ 0 := by linarith
          field_simp
        rw [hnorm] at h6
        rw [h6, ← e]
        push_cast
        rw [sub_sub, ← add_smul]
        congr 2
        ring

/-- Enough fuel for one step. -/
theorem unwrap_fuel (d : Vec3 ℝ) : ∃ F : Nat, ∀ fuel : Nat, F ≤ fuel → norm3 d ≤ (2 * fuel + 1) * Real.pi := by
  obtain ⟨F, hF⟩ := exists_nat_gt (norm3 d / Real.pi)
  have hp := Real.pi_pos
  refine ⟨F, fun fuel hf => ?_⟩
  have h1 : norm3 d < F * Real.pi := by rwa [div_lt_iff₀ hp] at hF
  have h2 : (F : ℝ) ≤ fuel := by exact_mod_cast hf
  nlinarith

/-- More fuel does not change the result. -/
theorem unwrap_mono : ∀ (f g : Nat) (d d' : Vec3 ℝ), unwrap f d = .ok d' → f ≤ g →
    unwrap g d = .ok d'
  | 0, g, d, d', h, _ => by
      rw [unwrap] at h
      by_cases hc : dot3 d d > Real.pi * Real.pi
      · rw [if_pos hc] at h; cases h
      · rw [if_neg hc] at h
        cases g with
        | zero => rw [unwrap, if_neg hc, h]
        | succ g => rw [unwrap, if_neg hc, h]
  | f + 1, 0, d, d', _, h => by omega
  | f + 1, g + 1, d, d', h, hg => by
      rw [unwrap] at h ⊢
      by_cases hc : dot3 d d > Real.pi * Real.pi
      · rw [if_pos hc] at h ⊢
        exact unwrap_mono f g _ _ h (by omega)
      · rw [if_neg hc] at h ⊢
        exact h

theorem unwrap_small {d : Vec3 ℝ} (h : norm3 d ≤ Real.pi) (fuel : Nat) : unwrap fuel d = .ok d := by
  have h1 : ¬ dot3 d d > Real.pi * Real.pi := by
    rw [dot3_gt Real.pi_pos.le]
    linarith
  cases fuel <;> rw [unwrap, if_neg h1]

/-- Each rotation vector of the list follows from the previous one and the orientation. -/
def Follows : Vec3 ℝ → List (Quat ℝ) → List (Vec3 ℝ) → Prop
  | _, [], l => l = []
  | prev, q :: qs, l => ∃ (k : Nat) (v : Vec3 ℝ) (l' : List (Vec3 ℝ)), l = v :: l' ∧
      v = toRvec q - (2 * Real.pi * k) • normalized (toRvec q - prev) ∧
      norm3 (v - prev) ≤ Real.pi ∧ Follows v qs l'

theorem rvecLoop_ok : ∀ (qs : List (Quat ℝ)) (prev : Vec3 ℝ),
    ∃ F l, Follows prev qs l ∧ ∀ fuel, F ≤ fuel → rvecLoop fuel prev qs = .ok l
  | [], prev => ⟨0, [], rfl, fun _ _ => rfl⟩
  | q :: qs, prev => by
      obtain ⟨F1, hF1⟩ := unwrap_fuel (toRvec q - prev)
      obtain ⟨k, d, hd, hk, hn⟩ := unwrap_spec F1 (toRvec q - prev) (hF1 F1 le_rfl)
      obtain ⟨F2, l, hl, hF2⟩ := rvecLoop_ok qs (prev + d)
      refine ⟨max F1 F2, (prev + d) :: l, ⟨k, prev + d, l, rfl, ?_, ?_, hl⟩, ?_⟩
      · rw [hk]; abel
      · simpa using hn
      · intro fuel hf
        rw [rvecLoop, unwrap_mono F1 fuel _ _ hd (le_trans (le_max_left _ _) hf)]
        dsimp only
        rw [hF2 fuel (le_trans (le_max_right _ _) hf)]

theorem rvecs_ok (q : Quat ℝ) (qs : List (Quat ℝ)) :
    ∃ F l, Follows (toRvec q) qs l ∧ ∀ fuel, F ≤ fuel → rvecs fuel (q :: qs) = .ok (toRvec q :: l) := by
  obtain ⟨F, l, h1, h2⟩ := rvecLoop_ok qs (toRvec q)
  exact ⟨F, l, h1, fun fuel hf => by rw [rvecs, h2 fuel hf]⟩

theorem rvecLoop_mono {f g : Nat} (hfg : f ≤ g) : ∀ (qs : List (Quat ℝ)) (prev : Vec3 ℝ) (l : List (Vec3 ℝ)),
    rvecLoop f prev qs = .ok l → rvecLoop g prev qs = .ok l
  | [], prev, l, h => h
  | q :: qs, prev, l, h => by
      rw [rvecLoop] at h ⊢
      cases hu : unwrap f (toRvec q - prev) with
      | error e => rw [hu] at h; cases h
      | ok d =>
        rw [hu] at h
        dsimp only at h
        rw [unwrap_mono f g _ _ hu hfg]
        dsimp only
        cases hr : rvecLoop f (prev + d) qs with
        | error e => rw [hr] at h; cases h
        | ok l' =>
          rw [hr] at h
          rw [rvecLoop_mono hfg qs _ _ hr]
          exact h

/-- Whatever the loop returns follows the orientations. -/
theorem rvecs_follows {fuel : Nat} {qs : List (Quat ℝ)} {l : List (Vec3 ℝ)}
    (h : rvecs fuel qs = .ok l) : ∃ q qs' l', qs = q :: qs' ∧ l = toRvec q :: l' ∧
      Follows (toRvec q) qs' l' := by
  cases qs with
  | nil => cases h
  | cons q qs =>
    obtain ⟨F, l', h1, h2⟩ := rvecLoop_ok qs (toRvec q)
    rw [rvecs] at h
    cases hr : rvecLoop fuel (toRvec q) qs with
    | error e => rw [hr] at h; cases h
    | ok l'' =>
      rw [hr] at h
      cases h
      have e1 := rvecLoop_mono (le_max_left fuel F) qs _ _ hr
      have e2 := h2 (max fuel F) (le_max_right _ _)
      rw [e1] at e2
      cases e2
      exact ⟨q, qs, _, rfl, rfl, h1⟩

theorem follows_length : ∀ (qs : List (Quat ℝ)) (prev : Vec3 ℝ) (l : List (Vec3 ℝ)),
    Follows prev qs l → l.length = qs.length
  | [], _, l, h => by rw [show l = [] from h]; rfl
  | _ :: qs, _, l, h => by
      obtain ⟨_, v, l', rfl, _, _, h4⟩ := h
      rw [List.length_cons, List.length_cons, follows_length qs v l' h4]

/-! ### Rotations -/

theorem aaQuat_unit {t : ℝ} {e : Vec3 ℝ} (he : dot3 e e = 1) : (aaQuat t e).normSq = 1 := by
  have hc := Real.sin_sq_add_cos_sq (t / 2)
  simp only [aaQuat, Quat.normSq]
  simp only [dot3] at he
  linear_combination hc + Real.sin (t / 2) ^ 2 * he

theorem toRot_neg (q : Quat ℝ) : Quat.toRot ⟨-q.w, -q.x, -q.y, -q.z⟩ = q.toRot := by
  apply mat3_eq <;> simp [Quat.toRot]

/-- A rotation about a fixed unit axis. -/
theorem expRot_axis {e : Vec3 ℝ} (he : dot3 e e = 1) (a : ℝ) : expRot (a • e) = (aaQuat a e).toRot := by
  have hn : norm3 e = 1 := by unfold norm3; rw [he]; simp
  have he0 : e ≠ 0 := norm3_ne (by rw [hn]; norm_num)
  unfold expRot
  by_cases h0 : a = 0
  · subst h0
    rw [if_pos (by simp)]
    apply mat3_eq <;> simp [Quat.toRot, aaQuat]
  have hne : a • e ≠ 0 := smul_ne_zero h0 he0
  rw [if_neg hne, normalized_eq hne, norm3_smul, hn, mul_one, smul_smul]
  rcases lt_or_gt_of_ne h0 with h | h
  · have e1 : 1 / |a| * a = -1 := by rw [abs_of_neg h]; field_simp
    rw [e1, abs_of_neg h]
    congr 1
    simp only [aaQuat, neg_div, Real.cos_neg, Real.sin_neg]
    simp
  · have e1 : 1 / |a| * a = 1 := by rw [abs_of_pos h]; field_simp
    rw [e1, abs_of_pos h, one_smul]

/-- Whole turns do not matter. -/
theorem expRot_turns {e : Vec3 ℝ} (he : dot3 e e = 1) (a : ℝ) (k : ℤ) :
    expRot ((a + 2 * Real.pi * k) • e) = expRot (a • e) := by
  rw [expRot_axis he, expRot_axis he]
  have e1 : (a + 2 * Real.pi * k) / 2 = a / 2 + k * Real.pi := by ring
  simp only [aaQuat, e1]
  rw [Real.cos_add_int_mul_pi, Real.sin_add_int_mul_pi]
  rcases Int.even_or_odd k with h | h
  · rw [h.neg_one_zpow]
    simp
  · rw [h.neg_one_zpow]
    rw [← toRot_neg]
    congr 1
    simp

theorem expRot_isRot (v : Vec3 ℝ) : IsRot (expRot v) := by
  unfold expRot
  by_cases h : v = 0
  · rw [if_pos h]
    exact ⟨by simp, by simp⟩
  · rw [if_neg h]
    have hu := aaQuat_unit (t := norm3 v) (normalized_unit v h).1
    exact ⟨toRot_mul_transpose _ hu, toRot_det _ hu⟩

theorem atan2_cos_sin {y x : ℝ} (h : x ^ 2 + y ^ 2 = 1) :
    Real.cos (atan2 y x) = x ∧ Real.sin (atan2 y x) = y := by
  unfold atan2
  have hn : ‖(⟨x, y⟩ : ℂ)‖ = 1 := by
    rw [Complex.norm_def, Complex.normSq_mk]
    rw [show x * x + y * y = 1 by linarith]
    simp
  have h0 : (⟨x, y⟩ : ℂ) ≠ 0 := by
    intro hc
    rw [hc] at hn
    simp at hn
  rw [Complex.cos_arg h0, Complex.sin_arg, hn]
  simp

/-- The rotation vector of a unit quaternion stands for the same rotation. -/
theorem expRot_toRvec {q : Quat ℝ} (hq : q.normSq = 1) : expRot (toRvec q) = q.toRot := by
  have hs := norm3_sq ![q.x, q.y, q.z]
  have hd : dot3 ![q.x, q.y, q.z] ![q.x, q.y, q.z] = q.x * q.x + q.y * q.y + q.z * q.z := by
    simp [dot3]
  rw [hd] at hs
  unfold Quat.normSq at hq
  unfold toRvec
  dsimp only
  by_cases h : norm3 ![q.x, q.y, q.z] = 0
  · rw [if_neg (by simpa using h)]
    rw [h] at hs
    have hx : q.x = 0 := by nlinarith [mul_self_nonneg q.x, mul_self_nonneg q.y, mul_self_nonneg q.z]
    have hy : q.y = 0 := by nlinarith [mul_self_nonneg q.x, mul_self_nonneg q.y, mul_self_nonneg q.z]
    have hz : q.z = 0 := by nlinarith [mul_self_nonneg q.x, mul_self_nonneg q.y, mul_self_nonneg q.z]
    rw [expRot, if_pos rfl]
    apply mat3_eq <;> simp [Quat.toRot, hx, hy, hz]
  rw [if_pos h]
  have hpos : 0 < norm3 ![q.x, q.y, q.z] := lt_of_le_of_ne (Imu.norm3_nonneg' _) (Ne.symm h)
  generalize norm3 ![q.x, q.y, q.z] = n at *
  obtain ⟨c1, c2⟩ := atan2_cos_sin (y := n) (x := |q.w|) (by rw [sq_abs]; nlinarith)
  have e2 : 2 * atan2 n |q.w| / 2 = atan2 n |q.w| := by ring
  have key : ∀ m : ℝ, m * m = n * n → m ≠ 0 →
      expRot (fun i => 2 * atan2 n |q.w| * ((![q.x, q.y, q.z] : Vec3 ℝ) i / m)) =
        Quat.toRot ⟨|q.w|, n / m * q.x, n / m * q.y, n / m * q.z⟩ := by
    intro m hm hm0
    have hun : dot3 (fun i => (![q.x, q.y, q.z] : Vec3 ℝ) i / m)
        (fun i => (![q.x, q.y, q.z] : Vec3 ℝ) i / m) = 1 := by
      simp only [dot3, cons_val_zero, cons_val_one, cons_val]
      field_simp
      linarith
    have h1 := expRot_axis hun (2 * atan2 n |q.w|)
    have hfun : (fun i => 2 * atan2 n |q.w| * ((![q.x, q.y, q.z] : Vec3 ℝ) i / m)) =
      (2 * atan2 n |q.w|) • (fun i => (![q.x, q.y, q.z] : Vec3 ℝ) i / m) := rfl
    rw [hfun, h1]
    congr 1
    unfold aaQuat
    rw [e2, c1, c2]
    congr 1 <;> simp only [cons_val_zero, cons_val_one, cons_val] <;> ring
  rcases lt_or_ge q.w 0 with hw | hw
  · rw [if_pos hw, key (-n) (by ring) (by simpa using h), ← toRot_neg q, abs_of_neg hw]
    have e3 : n / -n = -1 := by field_simp
    rw [e3]
    congr 2 <;> ring
  · rw [if_neg (not_lt.mpr hw), key n rfl h, abs_of_nonneg hw, div_self h]
    congr 1
    cases q
    congr 1 <;> ring

end Yac.Ctraj
