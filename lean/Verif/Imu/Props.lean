import Verif.Imu.Flight
import Verif.Geom.QuatProps

/-!
# C44: IMU propagation and kinematics

`Flight` is the motion of a body with constant angular rate and specific force.
-/

namespace Yac.Imu
open Yac.Geom Yac.Stream Yac.Residual Matrix

/-- Gravity: `g` along the z axis. -/
def gravity (p : Params) : Vec3 ℝ := ![0, 0, p.g]

theorem gW_eq (p : Params) : gW p = gravity p := by
  have h : normalized ![0, 0, 6371009] = ![0, 0, 1] := by
    have hd : dot3 (![0, 0, 6371009] : Vec3 ℝ) ![0, 0, 6371009] = 6371009 ^ 2 := by
      simp [dot3]; norm_num
    unfold normalized
    rw [hd, if_pos (by norm_num), Real.sqrt_sq (by norm_num)]
    apply vec3_ext <;> simp
  unfold gW gravity
  rw [h]
  apply vec3_ext <;> simp

theorem toRot_mul {p q : Quat ℝ} (hp : p.normSq = 1) (hq : q.normSq = 1) :
    (p.mul q).toRot = p.toRot * q.toRot := ((C33_homomorphism p q).2.1 hp hq).2

/-- The seconds between two timestamps. -/
noncomputable def secs (tstart tend : ℤ) : ℝ := ((tend - tstart : ℤ) : ℝ) / 10 ^ 9

/-- The samples strictly inside the interval. -/
def inside (d : Imu (Vec3 ℝ)) (tstart tend : ℤ) : List ℤ := d.ts.filter (fun t => decide (tstart < t ∧ t < tend))

theorem length_diffs (t : ℤ) (l : List ℤ) : (diffs t l).length = l.length := by
  induction l generalizing t with
  | nil => rfl
  | cons x xs ih => simp [diffs, ih]

theorem Run.count_eq {re : Bool} {p : Params} {sb : SB} {d : Imu (Vec3 ℝ)} {tstart tend : ℤ} {s : Loop}
    {l : List Seg} (h : Run re p sb d tstart tend s l) (hs : d.ts.Pairwise (· < ·)) :
    s.count = if tstart < tend then (inside d tstart tend).length + 1 else 0 := by
  have := congrArg List.length (h.cut hs)
  rw [List.length_map] at this
  rw [h.count, this]
  by_cases ht : tstart < tend
  · rw [if_pos ht, if_pos ht]
    simp [steps, length_diffs, inside]
  · rw [if_neg ht, if_neg ht]; rfl

/-- C44: over data covering the interval `propagation` succeeds, the elapsed time is the requested
interval, there is one step more than there are samples inside the interval, and the biases are
unchanged; `redoPreintegration` does the same over an interval of positive length. -/
theorem C44_elapsed (p : Params) (d : Imu (Vec3 ℝ)) (T : Mat4 ℝ) (sb : SB) (tstart tend : ℤ)
    (hc : Covers d tstart tend) (ht : tstart ≤ tend) :
    (∃ out, propagation p d T sb tstart tend = .ok out ∧
      (∀ a b, out.jac (0, a) (2, b) = if a = b then secs tstart tend else 0) ∧
      (d.ts.Pairwise (· < ·) → out.count = if tstart < tend then (inside d tstart tend).length + 1 else 0) ∧
      out.sb.bg = sb.bg ∧ out.sb.ba = sb.ba) ∧
    (tstart < tend → ∃ s, redo p sb d tstart tend = .ok s ∧ s.I.dt = secs tstart tend ∧
      (d.ts.Pairwise (· < ·) → s.count = (inside d tstart tend).length + 1)) := by
  constructor
  · obtain ⟨s, l, h1, h2, -⟩ := preint_run p sb hc ht
    refine ⟨_, by unfold propagation; rw [h1]; rfl, ?_, h2.count_eq, rfl, rfl⟩
    intro a b
    show jacobian T s.I (0, a) (2, b) = _
    have : jacobian T s.I (0, a) (2, b) = (s.I.dt • (1 : Mat3 ℝ)) a b := rfl
    rw [this, h2.dt, Matrix.smul_apply, Matrix.one_apply]
    split
    · rw [smul_eq_mul, mul_one]; rfl
    · rw [smul_eq_mul, mul_zero]
  · intro hlt
    obtain ⟨s, l, h1, h2, -⟩ := redo_run p sb hc hlt
    refine ⟨s, h1, h2.dt, fun hs => ?_⟩
    rw [h2.count_eq hs, if_pos hlt]

/-- Data not covering the interval is refused by `propagation`; no data at all is read out of
bounds. -/
theorem C44_refused (p : Params) (d : Imu (Vec3 ℝ)) (T : Mat4 ℝ) (sb : SB) (tstart tend f b : ℤ)
    (hf : d.ts.head? = some f) (hb : d.ts.getLast? = some b) (h : tstart < f ∨ b < tend) :
    propagation p d T sb tstart tend = .error .fatal := by
  unfold propagation preint
  rw [hf, hb]
  simp only
  by_cases h1 : tstart < f
  · rw [if_pos h1]; rfl
  · rw [if_neg h1, if_pos (by omega)]; rfl

theorem C44_empty_refuted (p : Params) (T : Mat4 ℝ) (sb : SB) (tstart tend : ℤ) :
    propagation p {} T sb tstart tend = .error .oob := rfl

/-- The steps into which the samples cut the interval are positive and add up to it. -/
theorem C44_steps (p : Params) (sb : SB) (d : Imu (Vec3 ℝ)) (tstart tend : ℤ) (hc : Covers d tstart tend)
    (hs : d.ts.Pairwise (· < ·)) (ht : tstart < tend) :
    (∀ h ∈ steps d.ts tstart tend, 0 < h) ∧ (steps d.ts tstart tend).sum = secs tstart tend := by
  obtain ⟨s, l, -, h2, -⟩ := preint_run p sb hc ht.le
  have e := h2.cut hs
  rw [if_pos ht] at e
  rw [← e]
  refine ⟨?_, h2.sum⟩
  intro h hh
  obtain ⟨g, hg, rfl⟩ := List.mem_map.mp hh
  exact h2.pos g hg

theorem tf_of_rot {T : Mat4 ℝ} (h : IsRot (tfRot T)) : (tfQuatOf T).normSq = 1 ∧ (tfQuatOf T).toRot = tfRot T :=
  (rotToQuat_spec h).spec

/-- C44 (partial: an error bound instead of equality): with constant angular rate and specific force,
over any grid of samples whose longest step is `H`, the attitude is exact, and the velocity and the
position differ from the true motion by at most the stated bounds, which vanish with `H`, provided no
step turns by less than 2e-6 (or there is no rotation at all). -/
theorem C44_motion_partial (p : Params) (d : Imu (Vec3 ℝ)) (T : Mat4 ℝ) (sb : SB) (tstart tend : ℤ)
    (w a : Vec3 ℝ) (R : ℝ → Mat3 ℝ) (v r : ℝ → Vec3 ℝ) (H : ℝ)
    (hc : Covers d tstart tend) (hs : d.ts.Pairwise (· < ·)) (ht : tstart ≤ tend)
    (hd : (∀ x ∈ d.gyr, x = w + sb.bg) ∧ ∀ x ∈ d.acc, x = a + sb.ba)
    (hF : Flight w a (gravity p) R v r) (hT : IsRot (tfRot T))
    (hR : R 0 = tfRot T) (hr : r 0 = tfTrans T) (hv : v 0 = sb.v)
    (hH : ∀ h ∈ steps d.ts tstart tend, h ≤ H)
    (hw : w = 0 ∨ ∀ h ∈ steps d.ts tstart tend, 2 / 1000000 < norm3 w * h) :
    ∃ out, propagation p d T sb tstart tend = .ok out ∧
      tfRot out.T = R (secs tstart tend) ∧
      (∀ i, |out.sb.v i - v (secs tstart tend) i| ≤ norm3 w ^ 2 * norm3 a * H ^ 2 * secs tstart tend / 12) ∧
      (∀ i, |tfTrans out.T i - r (secs tstart tend) i| ≤ norm3 w * norm3 a *
        (1 + norm3 w * (secs tstart tend + H / 4)) * H ^ 2 * secs tstart tend / 12) := by
  obtain ⟨s, l, h1, h2, -⟩ := preint_run p sb hc ht
  refine ⟨_, by unfold propagation; rw [h1]; rfl, ?_⟩
  have hl : ∀ h ∈ l.map Seg.dt, h ∈ steps d.ts tstart tend := by
    intro h hh
    have e := h2.cut hs
    rw [e] at hh
    split at hh
    · exact hh
    · cases hh
  have hcst := h2.const (w + sb.bg) (a + sb.ba) hd
  have ew : w + sb.bg - sb.bg = w := add_sub_cancel_right _ _
  have ea : a + sb.ba - sb.ba = a := add_sub_cancel_right _ _
  have hpl : Plain (w + sb.bg - sb.bg) (l.map Seg.dt) := by
    rw [ew]; exact hw.imp id (fun h x hx => h x (hl x hx))
  have hsum : (0 : ℝ) + (l.map Seg.dt).sum = secs tstart tend := by rw [zero_add]; exact h2.sum
  have hdt : s.I.dt = secs tstart tend := h2.dt
  have hq := fold_q false p sb l {} h2.pos hcst hpl 0 (by rw [expQuat_zero])
  rw [hsum, ← h2.fold, ew] at hq
  have hI := flight_ideal hF
  rw [hR] at hI
  have hm := fun i => fold_motion false p sb hT (w := w + sb.bg) (a := a + sb.ba) (by rw [ew, ea]; exact hI)
    (H := H) l {} h2.pos (fun g hg => hH _ (hl _ (List.mem_map.mpr ⟨g, hg, rfl⟩))) hcst hpl 0 (le_refl _)
    (by rw [expQuat_zero]) i (by simp) (by simp)
  simp only [hsum, ← h2.fold, ew, ea] at hm
  refine ⟨?_, ?_, ?_⟩
  · show tfRot (moved p T sb s.I).1 = _
    unfold moved tfQuat
    simp only
    rw [tfRot_tf, hq, toRot_mul (tf_of_rot hT).1 (expQuat_normSq _ _), (tf_of_rot hT).2, flight_rot hF, hR]
    rfl
  · intro i
    have h := (hm i).1
    show |(moved p T sb s.I).2.v i - _| ≤ _
    rw [abs_sub_comm]
    refine le_trans (le_of_eq ?_) h
    congr 1
    unfold moved
    simp only [Pi.add_apply, Pi.sub_apply, Pi.smul_apply, smul_eq_mul, gW_eq, hdt, hv]
    ring
  · intro i
    have h := (hm i).2
    show |tfTrans (moved p T sb s.I).1 i - _| ≤ _
    rw [abs_sub_comm]
    refine le_trans (le_of_eq ?_) h
    congr 1
    unfold moved tfQuat
    simp only [tfTrans_tf]
    simp only [Pi.add_apply, Pi.sub_apply, Pi.smul_apply, smul_eq_mul, gW_eq, hdt, hv, hr]
    ring

/-- C44: without rotation the propagation is exact: attitude, velocity and position are those of the
true motion, however the interval is cut into samples. -/
theorem C44_translation (p : Params) (d : Imu (Vec3 ℝ)) (T : Mat4 ℝ) (sb : SB) (tstart tend : ℤ)
    (a : Vec3 ℝ) (hc : Covers d tstart tend) (hs : d.ts.Pairwise (· < ·)) (ht : tstart ≤ tend)
    (hd : (∀ x ∈ d.gyr, x = sb.bg) ∧ ∀ x ∈ d.acc, x = a + sb.ba) (hT : IsRot (tfRot T)) :
    ∃ out, propagation p d T sb tstart tend = .ok out ∧
      tfRot out.T = tfRot T ∧
      out.sb = ⟨sb.v + secs tstart tend • (tfRot T *ᵥ a - gravity p), sb.bg, sb.ba⟩ ∧
      tfTrans out.T = tfTrans T + secs tstart tend • sb.v +
        (1 / 2 * secs tstart tend ^ 2) • (tfRot T *ᵥ a - gravity p) := by
  set g := tfRot T *ᵥ a - gravity p with hg
  have hF : Flight 0 a (gravity p) (fun _ => tfRot T) (fun t => sb.v + t • g)
      (fun t => tfTrans T + t • sb.v + (1 / 2 * t ^ 2) • g) := by
    refine ⟨?_, ?_, ?_⟩
    · intro t
      have e0 : skew (0 : Vec3 ℝ) = 0 := by
        ext i j; fin_cases i <;> fin_cases j <;> simp [skew]
      rw [e0, Matrix.mul_zero]
      exact MDeriv.const _ t
    · intro t i
      have := ((hasDerivAt_id t).mul_const (g i)).const_add (sb.v i)
      refine this.congr_deriv ?_
      rw [one_mul]
    · intro t i
      have := (((hasDerivAt_id t).mul_const (sb.v i)).const_add (tfTrans T i)).add
        ((((hasDerivAt_id t).pow 2).const_mul (1 / 2)).mul_const (g i))
      refine this.congr_deriv ?_
      simp only [id, Pi.add_apply, Pi.smul_apply, smul_eq_mul]; ring
  obtain ⟨M, hM⟩ : ∃ M, ∀ h ∈ steps d.ts tstart tend, h ≤ M := by
    generalize steps d.ts tstart tend = l
    induction l with
    | nil => exact ⟨0, by simp⟩
    | cons x xs ih =>
      obtain ⟨M, hM⟩ := ih
      refine ⟨max x M, fun h hh => ?_⟩
      rcases List.mem_cons.mp hh with rfl | hh
      · exact le_max_left _ _
      · exact (hM h hh).trans (le_max_right _ _)
  obtain ⟨out, h1, h2, h3, h4⟩ := C44_motion_partial p d T sb tstart tend 0 a _ _ _ M hc hs ht
    (by rw [zero_add]; exact hd) hF hT rfl (by simp) (by simp) hM (Or.inl rfl)
  have n0 : norm3 (0 : Vec3 ℝ) = 0 := by simp [norm3, dot3]
  refine ⟨out, h1, h2, ?_, ?_⟩
  · obtain ⟨⟨out', e, -, -, e1, e2⟩, -⟩ := C44_elapsed p d T sb tstart tend hc ht
    rw [h1] at e
    injection e with e
    subst e
    ext i
    · have := h3 i
      rw [n0] at this
      simp only [ne_eq, OfNat.ofNat_ne_zero, not_false_eq_true, zero_pow, zero_mul, zero_div] at this
      have := abs_nonpos_iff.mp this
      linarith
    · rw [e1]
    · rw [e2]
  · funext i
    have := h4 i
    rw [n0] at this
    simp only [zero_mul, zero_div] at this
    have := abs_nonpos_iff.mp this
    linarith

theorem toRot_close {p q : Quat ℝ} (hq : q.normSq = 1) {e : ℝ} (h : ‖toH p - toH q‖ ≤ e) (i j : Fin 3) :
    |p.toRot i j - q.toRot i j| ≤ 4 * e * (2 + e) := by
  have e0 : 0 ≤ e := (norm_nonneg _).trans h
  have hsq : (p.w - q.w) ^ 2 + (p.x - q.x) ^ 2 + (p.y - q.y) ^ 2 + (p.z - q.z) ^ 2 ≤ e ^ 2 := by
    have h1 : ‖toH p - toH q‖ ^ 2 ≤ e ^ 2 := pow_le_pow_left₀ (norm_nonneg _) h 2
    have h2 : toH p - toH q = toH ⟨p.w - q.w, p.x - q.x, p.y - q.y, p.z - q.z⟩ := rfl
    rw [h2, pow_two, norm_toH] at h1
    simp only [Quat.normSq] at h1
    nlinarith
  have b : ∀ x : ℝ, x ^ 2 ≤ e ^ 2 → |x| ≤ e := fun x hx => abs_le_of_sq_le_sq hx e0
  have bw := b (p.w - q.w) (by nlinarith [sq_nonneg (p.x - q.x), sq_nonneg (p.y - q.y), sq_nonneg (p.z - q.z)])
  have bx := b (p.x - q.x) (by nlinarith [sq_nonneg (p.w - q.w), sq_nonneg (p.y - q.y), sq_nonneg (p.z - q.z)])
  have by' := b (p.y - q.y) (by nlinarith [sq_nonneg (p.x - q.x), sq_nonneg (p.w - q.w), sq_nonneg (p.z - q.z)])
  have bz := b (p.z - q.z) (by nlinarith [sq_nonneg (p.x - q.x), sq_nonneg (p.y - q.y), sq_nonneg (p.w - q.w)])
  simp only [Quat.normSq] at hq
  have c : ∀ x : ℝ, x ^ 2 ≤ 1 → |x| ≤ 1 := fun x hx => abs_le_of_sq_le_sq (by linarith) (by norm_num)
  have cw := c q.w (by nlinarith [sq_nonneg q.x, sq_nonneg q.y, sq_nonneg q.z])
  have cx := c q.x (by nlinarith [sq_nonneg q.w, sq_nonneg q.y, sq_nonneg q.z])
  have cy := c q.y (by nlinarith [sq_nonneg q.x, sq_nonneg q.w, sq_nonneg q.z])
  have cz := c q.z (by nlinarith [sq_nonneg q.x, sq_nonneg q.y, sq_nonneg q.w])
  have prod : ∀ x y x' y' : ℝ, |x - x'| ≤ e → |y - y'| ≤ e → |x'| ≤ 1 → |y'| ≤ 1 →
      |x * y - x' * y'| ≤ e * (2 + e) := by
    intro x y x' y' h1 h2 h3 h4
    have e1 : x * y - x' * y' = (x - x') * (y - y') + (x - x') * y' + x' * (y - y') := by ring
    rw [e1]
    have k1 : |(x - x') * (y - y')| ≤ e * e := by
      rw [abs_mul]; exact mul_le_mul h1 h2 (abs_nonneg _) e0
    have k2 : |(x - x') * y'| ≤ e * 1 := by
      rw [abs_mul]; exact mul_le_mul h1 h4 (abs_nonneg _) e0
    have k3 : |x' * (y - y')| ≤ 1 * e := by
      rw [abs_mul]; exact mul_le_mul h3 h2 (abs_nonneg _) (by norm_num)
    refine (abs_add_le _ _).trans ((add_le_add ((abs_add_le _ _).trans (add_le_add k1 k2)) k3).trans ?_)
    linarith
  have two : ∀ x y x' y' : ℝ, |x - x'| ≤ e * (2 + e) → |y - y'| ≤ e * (2 + e) →
      |2 * (x + y) - 2 * (x' + y')| ≤ 4 * e * (2 + e) ∧ |2 * (x - y) - 2 * (x' - y')| ≤ 4 * e * (2 + e) ∧
      |1 - 2 * (x + y) - (1 - 2 * (x' + y'))| ≤ 4 * e * (2 + e) := by
    intro x y x' y' h1 h2
    rw [abs_le] at h1 h2
    refine ⟨?_, ?_, ?_⟩ <;> rw [abs_le] <;> constructor <;> linarith [h1.1, h1.2, h2.1, h2.2]
  have xx := prod _ _ _ _ bx bx cx cx
  have yy := prod _ _ _ _ by' by' cy cy
  have zz := prod _ _ _ _ bz bz cz cz
  have xy := prod _ _ _ _ bx by' cx cy
  have xz := prod _ _ _ _ bx bz cx cz
  have yz := prod _ _ _ _ by' bz cy cz
  have wx := prod _ _ _ _ bw bx cw cx
  have wy := prod _ _ _ _ bw by' cw cy
  have wz := prod _ _ _ _ bw bz cw cz
  rw [abs_le] at *
  fin_cases i <;> fin_cases j <;> simp [Quat.toRot] <;> constructor <;>
    linarith [xx.1, xx.2, yy.1, yy.2, zz.1, zz.2, xy.1, xy.2, xz.1, xz.2, yz.1, yz.2, wx.1, wx.2, wy.1, wy.2, wz.1, wz.2]

/-- C44: with constant angular rate, whatever the rate and the grid, the attitude is the true one up to
an error of 1e-24 per sample in the quaternion. -/
theorem C44_attitude (p : Params) (d : Imu (Vec3 ℝ)) (T : Mat4 ℝ) (sb : SB) (tstart tend : ℤ)
    (w a g : Vec3 ℝ) (R : ℝ → Mat3 ℝ) (v r : ℝ → Vec3 ℝ)
    (hc : Covers d tstart tend) (ht : tstart ≤ tend)
    (hd : (∀ x ∈ d.gyr, x = w + sb.bg) ∧ ∀ x ∈ d.acc, x = a)
    (hF : Flight w a g R v r) (hT : IsRot (tfRot T)) (hR : R 0 = tfRot T) :
    ∃ out, propagation p d T sb tstart tend = .ok out ∧ ∀ i j,
      |tfRot out.T i j - R (secs tstart tend) i j| ≤
        4 * ((1 + 1 / 10 ^ 24) ^ out.count - 1) * (2 + ((1 + 1 / 10 ^ 24) ^ out.count - 1)) := by
  obtain ⟨s, l, h1, h2, -⟩ := preint_run p sb hc ht
  refine ⟨_, by unfold propagation; rw [h1]; rfl, ?_⟩
  have ew : w + sb.bg - sb.bg = w := add_sub_cancel_right _ _
  have hcst := h2.const (w + sb.bg) a hd
  have hq := fold_q_close false p sb l {} h2.pos hcst 0 0 (by rw [expQuat_zero]; simp)
  rw [zero_add, h2.sum, ← h2.fold, ew, add_zero, one_mul, ← h2.count] at hq
  intro i j
  show |tfRot (moved p T sb s.I).1 i j - _| ≤ _
  have hm : tfRot (moved p T sb s.I).1 = ((tfQuatOf T).mul s.I.q).toRot := by
    unfold moved tfQuat
    simp only
    rw [tfRot_tf]
  have he : R (secs tstart tend) = ((tfQuatOf T).mul (expQuat w (secs tstart tend))).toRot := by
    rw [toRot_mul (tf_of_rot hT).1 (expQuat_normSq _ _), (tf_of_rot hT).2, flight_rot hF, hR]; rfl
  rw [hm, he]
  apply toRot_close
  · rw [normSq_mul, (tf_of_rot hT).1, expQuat_normSq, one_mul]
  · rw [toH_mul, toH_mul, ← mul_sub, norm_mul]
    have n1 : ‖toH (tfQuatOf T)‖ = 1 := by
      have := norm_toH (tfQuatOf T)
      rw [(tf_of_rot hT).1] at this
      nlinarith [norm_nonneg (toH (tfQuatOf T))]
    rw [n1, one_mul]
    exact hq

/-- Samples at the given times, all with the same measurements. -/
def constData (ts : List ℤ) (w a : Vec3 ℝ) : Imu (Vec3 ℝ) := ⟨ts, ts.map fun _ => a, ts.map fun _ => w⟩

theorem constData_const (ts : List ℤ) (w a : Vec3 ℝ) : Const (constData ts w a) w a := by
  constructor <;> intro x hx <;> obtain ⟨_, _, rfl⟩ := List.mem_map.mp hx <;> rfl

theorem constData_covers {ts : List ℤ} (w a : Vec3 ℝ) {f b tstart tend : ℤ} (hf : ts.head? = some f)
    (hb : ts.getLast? = some b) (h1 : f ≤ tstart) (h2 : tend ≤ b) : Covers (constData ts w a) tstart tend :=
  ⟨⟨by simp [constData], by simp [constData]⟩, ⟨f, hf, h1⟩, ⟨b, hb, h2⟩⟩

theorem stepQuat_pi (h : ℝ) (hh : 0 < h) (h1 : h ≤ 1) (hb : 1 / 1000 < h) : stepQuat ![0, 0, Real.pi] h =
    ⟨Real.cos (Real.pi * h / 2), 0, 0, Real.sin (Real.pi * h / 2)⟩ := by
  have hn : norm3 ![0, 0, Real.pi] = Real.pi := by
    simp only [norm3, dot3]
    simp
    rw [Real.sqrt_mul_self Real.pi_pos.le]
  have hp := Real.pi_pos
  have hp3 := Real.pi_gt_three
  rw [stepQuat_exact _ _ hh (Or.inr (by rw [hn]; nlinarith))]
  unfold expQuat
  rw [hn]
  simp

/-- C44 refuted for rotating bodies: over the same second, with the same constant measurements, one
step from end to end gives a different velocity than two. -/
theorem C44_partition_refuted (p : Params) : ∃ (w a : Vec3 ℝ) (T : Mat4 ℝ) (sb : SB) (d1 d2 : Imu (Vec3 ℝ))
    (o1 o2 : Output), Covers d1 0 (10 ^ 9) ∧ Covers d2 0 (10 ^ 9) ∧ Const d1 w a ∧ Const d2 w a ∧
      propagation p d1 T sb 0 (10 ^ 9) = .ok o1 ∧ propagation p d2 T sb 0 (10 ^ 9) = .ok o2 ∧
      o1.sb.v ≠ o2.sb.v := by
  have c1 : Covers (constData [0, 10 ^ 9] ![0, 0, Real.pi] ![1, 0, 0]) 0 (10 ^ 9) :=
    constData_covers _ _ (f := 0) (b := 10 ^ 9) rfl rfl (by norm_num) (by norm_num)
  have c2 : Covers (constData [0, 5 * 10 ^ 8, 10 ^ 9] ![0, 0, Real.pi] ![1, 0, 0]) 0 (10 ^ 9) :=
    constData_covers _ _ (f := 0) (b := 10 ^ 9) rfl rfl (by norm_num) (by norm_num)
  obtain ⟨s1, l1, e1, r1, -⟩ := preint_run p ⟨0, 0, 0⟩ c1 (by norm_num)
  obtain ⟨s2, l2, e2, r2, -⟩ := preint_run p ⟨0, 0, 0⟩ c2 (by norm_num)
  have k1 := r1.cut (by simp [constData])
  have k2 := r2.cut (by simp [constData])
  rw [if_pos (by norm_num)] at k1 k2
  simp [steps, constData, diffs, ns2sec] at k1
  simp [steps, constData, diffs, ns2sec] at k2
  norm_num at k1 k2
  have q1 := r1.const _ _ (constData_const _ _ _)
  have q2 := r2.const _ _ (constData_const _ _ _)
  have hstep : ∀ (g : Seg) (I : Integ), g.Const ![0, 0, Real.pi] ![1, 0, 0] →
      (integrate false p ⟨0, 0, 0⟩ I g).q = I.q.mul (stepQuat ![0, 0, Real.pi] g.dt) ∧
      (integrate false p ⟨0, 0, 0⟩ I g).acc_int = I.acc_int +
        ((1 / 2 : ℝ) * g.dt) • ((I.q.toRot + (I.q.mul (stepQuat ![0, 0, Real.pi] g.dt)).toRot) *ᵥ ![1, 0, 0]) := by
    intro g I hg
    obtain ⟨h1, h2, h3, h4⟩ := hg
    simp only [integrate, h1, h2, h3, h4, mean_self, sub_zero, and_self]
  have v1 : s1.I.acc_int 1 = 0 := by
    match l1, k1, r1.fold, q1 with
    | [g], k1, hf, q1 =>
      simp at k1
      rw [hf, List.foldl_cons, List.foldl_nil, (hstep g {} (q1 g (by simp))).2, k1,
        stepQuat_pi 1 (by norm_num) (by norm_num) (by norm_num)]
      simp [Quat.mul, Quat.toRot, mulVec, dotProduct, Fin.sum_univ_three]
    | g :: g' :: l, k1, _, _ => simp at k1
  have v2 : s2.I.acc_int 1 = 1 / 2 := by
    match l2, k2, r2.fold, q2 with
    | [g, g'], k2, hf, q2 =>
      simp at k2
      have a1 := hstep g {} (q2 g (by simp))
      have a2 := hstep g' (integrate false p ⟨0, 0, 0⟩ {} g) (q2 g' (by simp))
      rw [hf, List.foldl_cons, List.foldl_cons, List.foldl_nil, a2.2, a1.1, a1.2, k2.1, k2.2, inv_eq_one_div,
        stepQuat_pi (1 / 2) (by norm_num) (by norm_num) (by norm_num)]
      have e : Real.pi * (1 / 2) / 2 = Real.pi / 4 := by ring
      rw [e, Real.cos_pi_div_four, Real.sin_pi_div_four]
      have h2 : Real.sqrt 2 * Real.sqrt 2 = 2 := Real.mul_self_sqrt (by norm_num)
      simp [Quat.mul, Quat.toRot, mulVec, dotProduct, Fin.sum_univ_three]
      nlinarith
    | [], k2, _, _ => simp at k2
    | [g], k2, _, _ => simp at k2
    | g :: g' :: g'' :: l, k2, _, _ => simp at k2
  refine ⟨![0, 0, Real.pi], ![1, 0, 0], 1, ⟨0, 0, 0⟩, _, _, _, _, c1, c2, constData_const _ _ _, constData_const _ _ _,
    by unfold propagation; rw [e1]; rfl, by unfold propagation; rw [e2]; rfl, ?_⟩
  intro h
  have h1 := congrFun h 1
  have hone : tfRot (1 : Mat4 ℝ) = 1 := by apply mat3_eq <;> simp [tfRot]
  simp only [moved, hone, one_mulVec, Pi.add_apply, Pi.sub_apply, Pi.smul_apply, smul_eq_mul, gW_eq, gravity] at h1
  rw [v1, v2] at h1
  simp at h1

/-- A body turning at one radian per second about z with constant specific force along its x axis,
without gravity, moves like this. -/
example : Flight ![0, 0, 1] ![1, 0, 0] 0 (rotAt ![0, 0, 1])
    (fun t => ![Real.sin t, 1 - Real.cos t, 0]) (fun t => ![1 - Real.cos t, t - Real.sin t, 0]) := by
  have hn : norm3 (![0, 0, 1] : Vec3 ℝ) = 1 := by simp [norm3, dot3]
  have hrot : ∀ t, rotAt ![0, 0, 1] t *ᵥ ![1, 0, 0] = ![Real.cos t, Real.sin t, 0] := by
    intro t
    have h1 := Real.cos_two_mul (t / 2)
    have h2 := Real.sin_two_mul (t / 2)
    have h3 := Real.sin_sq_add_cos_sq (t / 2)
    rw [show 2 * (t / 2) = t by ring] at h1 h2
    unfold rotAt expQuat
    rw [hn]
    apply vec3_ext <;> simp [Quat.toRot, mulVec, dotProduct, Fin.sum_univ_three]
    · linarith
    · linarith
  refine ⟨?_, ?_, ?_⟩
  · intro t
    rw [rotAt_comm]; exact rotAt_deriv _ t
  · intro t i
    rw [hrot]
    fin_cases i
    · simpa using Real.hasDerivAt_sin t
    · simpa using (Real.hasDerivAt_cos t).const_sub 1
    · simpa using hasDerivAt_const t (0 : ℝ)
  · intro t i
    fin_cases i
    · simpa using (Real.hasDerivAt_cos t).const_sub 1
    · exact (hasDerivAt_id t).sub (Real.hasDerivAt_sin t)
    · simpa using hasDerivAt_const t (0 : ℝ)

/-- Half a second cut out of samples at three times. -/
example (w a : Vec3 ℝ) : Covers (constData [0, 3 * 10 ^ 8, 10 ^ 9] w a) (10 ^ 8) (6 * 10 ^ 8) ∧
    (constData [0, 3 * 10 ^ 8, 10 ^ 9] w a).ts.Pairwise (· < ·) ∧
    steps (constData [0, 3 * 10 ^ 8, 10 ^ 9] w a).ts (10 ^ 8) (6 * 10 ^ 8) = [2 / 10, 3 / 10] ∧
    inside (constData [0, 3 * 10 ^ 8, 10 ^ 9] w a) (10 ^ 8) (6 * 10 ^ 8) = [3 * 10 ^ 8] := by
  refine ⟨constData_covers _ _ (f := 0) (b := 10 ^ 9) rfl rfl (by norm_num) (by norm_num), by simp [constData], ?_, ?_⟩
  · simp [steps, constData, diffs, ns2sec]; norm_num
  · simp [inside, constData]

end Yac.Imu
