import Verif.Geom.QuatProps

/-!
# Eigen's conversion of a rotation matrix to a quaternion
-/

namespace Yac.Geom
open Matrix

/-- The ten products `4 q_a q_b` of the components of a quaternion of the rotation `m`. -/
structure QuatOf (m : Mat3 ℝ) (q : Quat ℝ) : Prop where
  ww : 4 * (q.w * q.w) = 1 + m 0 0 + m 1 1 + m 2 2
  xx : 4 * (q.x * q.x) = 1 + m 0 0 - m 1 1 - m 2 2
  yy : 4 * (q.y * q.y) = 1 - m 0 0 + m 1 1 - m 2 2
  zz : 4 * (q.z * q.z) = 1 - m 0 0 - m 1 1 + m 2 2
  wx : 4 * (q.w * q.x) = m 2 1 - m 1 2
  wy : 4 * (q.w * q.y) = m 0 2 - m 2 0
  wz : 4 * (q.w * q.z) = m 1 0 - m 0 1
  xy : 4 * (q.x * q.y) = m 0 1 + m 1 0
  xz : 4 * (q.x * q.z) = m 0 2 + m 2 0
  yz : 4 * (q.y * q.z) = m 1 2 + m 2 1

theorem QuatOf.spec {m : Mat3 ℝ} {q : Quat ℝ} (h : QuatOf m q) : q.normSq = 1 ∧ q.toRot = m := by
  obtain ⟨ww, xx, yy, zz, wx, wy, wz, xy, xz, yz⟩ := h
  constructor
  · unfold Quat.normSq; linarith
  · apply mat3_eq <;> simp [Quat.toRot] <;> linarith

theorem QuatOf.of_toRot (q : Quat ℝ) (h : q.normSq = 1) : QuatOf q.toRot q := by
  unfold Quat.normSq at h
  constructor <;> simp [Quat.toRot] <;> linarith

theorem QuatOf.pm {m : Mat3 ℝ} {p q : Quat ℝ} (hp : QuatOf m p) (hq : QuatOf m q) :
    p = q ∨ p = ⟨-q.w, -q.x, -q.y, -q.z⟩ := by
  obtain ⟨ww, xx, yy, zz, wx, wy, wz, xy, xz, yz⟩ := hp
  obtain ⟨ww', xx', yy', zz', wx', wy', wz', xy', xz', yz'⟩ := hq
  have hsq : ∀ a b : ℝ, a * a = b * b → a = b ∨ a = -b := fun a b h => mul_self_eq_mul_self_iff.mp h
  have key : ∀ a b c d : ℝ, a = b ∨ a = -b → b ≠ 0 → a * c = b * d → (a = b ∧ c = d) ∨ (a = -b ∧ c = -d) := by
    intro a b c d h hb e
    rcases h with h | h
    · left; exact ⟨h, mul_left_cancel₀ hb (by rw [h] at e; exact e)⟩
    · right; refine ⟨h, mul_left_cancel₀ hb ?_⟩
      rw [h] at e; linarith
  have fin : ∀ a b c d e f g k : ℝ, a * a = b * b → b ≠ 0 → a * c = b * d → a * e = b * f →
      a * g = b * k → (a = b ∧ c = d ∧ e = f ∧ g = k) ∨ (a = -b ∧ c = -d ∧ e = -f ∧ g = -k) := by
    intro a b c d e f g k h0 hb h1 h2 h3
    rcases hsq a b h0 with h | h
    · left
      subst h
      exact ⟨rfl, mul_left_cancel₀ hb h1, mul_left_cancel₀ hb h2, mul_left_cancel₀ hb h3⟩
    · right
      subst h
      refine ⟨rfl, mul_left_cancel₀ hb ?_, mul_left_cancel₀ hb ?_, mul_left_cancel₀ hb ?_⟩ <;>
        linarith
  by_cases hw : q.w = 0
  · by_cases hx : q.x = 0
    · by_cases hy : q.y = 0
      · by_cases hz : q.z = 0
        · exfalso; rw [hw] at ww'; rw [hx] at xx'; rw [hy] at yy'; rw [hz] at zz'; linarith
        · rcases fin p.z q.z p.w q.w p.x q.x p.y q.y (by linarith) hz (by linarith) (by linarith)
            (by linarith) with ⟨a, b, c, d⟩ | ⟨a, b, c, d⟩
          · left; ext <;> assumption
          · right; ext <;> assumption
      · rcases fin p.y q.y p.w q.w p.x q.x p.z q.z (by linarith) hy (by linarith) (by linarith)
            (by linarith) with ⟨a, b, c, d⟩ | ⟨a, b, c, d⟩
        · left; ext <;> assumption
        · right; ext <;> assumption
    · rcases fin p.x q.x p.w q.w p.y q.y p.z q.z (by linarith) hx (by linarith) (by linarith)
            (by linarith) with ⟨a, b, c, d⟩ | ⟨a, b, c, d⟩
      · left; ext <;> assumption
      · right; ext <;> assumption
  · rcases fin p.w q.w p.x q.x p.y q.y p.z q.z (by linarith) hw (by linarith) (by linarith)
            (by linarith) with ⟨a, b, c, d⟩ | ⟨a, b, c, d⟩
    · left; ext <;> assumption
    · right; ext <;> assumption

/-- One branch of the conversion: the pivot has square `n`, the others are `N_a / (2 √n)`. -/
theorem branch (n A B C AA BB CC AB AC BC : ℝ) (hn : 0 < n)
    (h1 : A * A = n * AA) (h2 : B * B = n * BB) (h3 : C * C = n * CC)
    (h4 : A * B = n * AB) (h5 : A * C = n * AC) (h6 : B * C = n * BC) :
    let t := Real.sqrt n
    let p := (1 / 2) * t
    let u := (1 / 2) / t
    4 * (p * p) = n ∧ 4 * (p * (A * u)) = A ∧ 4 * (p * (B * u)) = B ∧ 4 * (p * (C * u)) = C ∧
    4 * ((A * u) * (A * u)) = AA ∧ 4 * ((B * u) * (B * u)) = BB ∧ 4 * ((C * u) * (C * u)) = CC ∧
    4 * ((A * u) * (B * u)) = AB ∧ 4 * ((A * u) * (C * u)) = AC ∧ 4 * ((B * u) * (C * u)) = BC := by
  have hs : Real.sqrt n * Real.sqrt n = n := Real.mul_self_sqrt hn.le
  have hp : 0 < Real.sqrt n := Real.sqrt_pos.mpr hn
  have hu : 4 * (((1 / 2) / Real.sqrt n) * ((1 / 2) / Real.sqrt n)) = 1 / n := by
    rw [div_mul_div_comm, hs]; field_simp; norm_num
  have hc : Real.sqrt n * ((1 / 2) / Real.sqrt n) = 1 / 2 := by field_simp
  have two : ∀ X Y XY : ℝ, X * Y = n * XY →
      4 * ((X * ((1 / 2) / Real.sqrt n)) * (Y * ((1 / 2) / Real.sqrt n))) = XY := by
    intro X Y XY h
    have : 4 * ((X * ((1 / 2) / Real.sqrt n)) * (Y * ((1 / 2) / Real.sqrt n))) =
      (X * Y) * (4 * (((1 / 2) / Real.sqrt n) * ((1 / 2) / Real.sqrt n))) := by ring
    rw [this, hu, h]; field_simp
  have one : ∀ X : ℝ, 4 * (((1 / 2) * Real.sqrt n) * (X * ((1 / 2) / Real.sqrt n))) = X := by
    intro X
    have : 4 * (((1 / 2) * Real.sqrt n) * (X * ((1 / 2) / Real.sqrt n))) =
      2 * X * (Real.sqrt n * ((1 / 2) / Real.sqrt n)) := by ring
    rw [this, hc]; ring
  refine ⟨?_, one A, one B, one C, two _ _ _ h1, two _ _ _ h2, two _ _ _ h3, two _ _ _ h4,
    two _ _ _ h5, two _ _ _ h6⟩
  show 4 * ((1 / 2 * Real.sqrt n) * (1 / 2 * Real.sqrt n)) = n
  linarith

set_option maxHeartbeats 1000000 in
theorem branch_w {m : Mat3 ℝ} (h : RotEntries m) (ht : m 0 0 + m 1 1 + m 2 2 > 0) : QuatOf m
    ⟨(1 / 2) * Real.sqrt (m 0 0 + m 1 1 + m 2 2 + 1),
      (m 2 1 - m 1 2) * ((1 / 2) / Real.sqrt (m 0 0 + m 1 1 + m 2 2 + 1)),
      (m 0 2 - m 2 0) * ((1 / 2) / Real.sqrt (m 0 0 + m 1 1 + m 2 2 + 1)),
      (m 1 0 - m 0 1) * ((1 / 2) / Real.sqrt (m 0 0 + m 1 1 + m 2 2 + 1))⟩ := by
  obtain ⟨r00, r11, r22, r01, r02, r12, c00, c11, c22, c01, c02, c12, k00, k01, k02, k10, k11,
    k12, k20, k21, k22⟩ := h
  obtain ⟨p, a, b, c, aa, bb, cc, ab, ac, bc⟩ := branch (m 0 0 + m 1 1 + m 2 2 + 1)
    (m 2 1 - m 1 2) (m 0 2 - m 2 0) (m 1 0 - m 0 1)
    (1 + m 0 0 - m 1 1 - m 2 2) (1 - m 0 0 + m 1 1 - m 2 2) (1 - m 0 0 - m 1 1 + m 2 2)
    (m 0 1 + m 1 0) (m 0 2 + m 2 0) (m 1 2 + m 2 1) (by linarith)
    (by linarith) (by linarith) (by linarith) (by linarith) (by linarith) (by linarith)
  exact ⟨by linarith, by linarith, by linarith, by linarith, by linarith, by linarith,
    by linarith, by linarith, by linarith, by linarith⟩

set_option maxHeartbeats 1000000 in
theorem branch_x {m : Mat3 ℝ} (h : RotEntries m) (ht : ¬ m 0 0 + m 1 1 + m 2 2 > 0)
    (h1 : m 1 1 ≤ m 0 0) (h2 : m 2 2 ≤ m 0 0) : QuatOf m
        ⟨(m 2 1 - m 1 2) * ((1 / 2) / Real.sqrt (m 0 0 - m 1 1 - m 2 2 + 1)),
          (1 / 2) * Real.sqrt (m 0 0 - m 1 1 - m 2 2 + 1),
          (m 1 0 + m 0 1) * ((1 / 2) / Real.sqrt (m 0 0 - m 1 1 - m 2 2 + 1)),
          (m 2 0 + m 0 2) * ((1 / 2) / Real.sqrt (m 0 0 - m 1 1 - m 2 2 + 1))⟩ := by
  obtain ⟨r00, r11, r22, r01, r02, r12, c00, c11, c22, c01, c02, c12, k00, k01, k02, k10, k11,
    k12, k20, k21, k22⟩ := h
  obtain ⟨p, a, b, c, aa, bb, cc, ab, ac, bc⟩ := branch (m 0 0 - m 1 1 - m 2 2 + 1)
    (m 2 1 - m 1 2) (m 1 0 + m 0 1) (m 2 0 + m 0 2)
    (1 + m 0 0 + m 1 1 + m 2 2) (1 - m 0 0 + m 1 1 - m 2 2) (1 - m 0 0 - m 1 1 + m 2 2)
    (m 0 2 - m 2 0) (m 1 0 - m 0 1) (m 1 2 + m 2 1) (by linarith)
    (by linarith) (by linarith) (by linarith) (by linarith) (by linarith) (by linarith)
  exact ⟨by linarith, by linarith, by linarith, by linarith, by linarith, by linarith,
    by linarith, by linarith, by linarith, by linarith⟩

set_option maxHeartbeats 1000000 in
theorem branch_y {m : Mat3 ℝ} (h : RotEntries m) (ht : ¬ m 0 0 + m 1 1 + m 2 2 > 0)
    (h1 : m 0 0 ≤ m 1 1) (h2 : m 2 2 ≤ m 1 1) : QuatOf m
        ⟨(m 0 2 - m 2 0) * ((1 / 2) / Real.sqrt (m 1 1 - m 2 2 - m 0 0 + 1)),
          (m 0 1 + m 1 0) * ((1 / 2) / Real.sqrt (m 1 1 - m 2 2 - m 0 0 + 1)),
          (1 / 2) * Real.sqrt (m 1 1 - m 2 2 - m 0 0 + 1),
          (m 2 1 + m 1 2) * ((1 / 2) / Real.sqrt (m 1 1 - m 2 2 - m 0 0 + 1))⟩ := by
  obtain ⟨r00, r11, r22, r01, r02, r12, c00, c11, c22, c01, c02, c12, k00, k01, k02, k10, k11,
    k12, k20, k21, k22⟩ := h
  obtain ⟨p, a, b, c, aa, bb, cc, ab, ac, bc⟩ := branch (m 1 1 - m 2 2 - m 0 0 + 1)
    (m 0 2 - m 2 0) (m 0 1 + m 1 0) (m 2 1 + m 1 2)
    (1 + m 0 0 + m 1 1 + m 2 2) (1 + m 0 0 - m 1 1 - m 2 2) (1 - m 0 0 - m 1 1 + m 2 2)
    (m 2 1 - m 1 2) (m 1 0 - m 0 1) (m 0 2 + m 2 0) (by linarith)
    (by linarith) (by linarith) (by linarith) (by linarith) (by linarith) (by linarith)
  exact ⟨by linarith, by linarith, by linarith, by linarith, by linarith, by linarith,
    by linarith, by linarith, by linarith, by linarith⟩

set_option maxHeartbeats 1000000 in
theorem branch_z {m : Mat3 ℝ} (h : RotEntries m) (ht : ¬ m 0 0 + m 1 1 + m 2 2 > 0)
    (h1 : m 0 0 ≤ m 2 2) (h2 : m 1 1 ≤ m 2 2) : QuatOf m
        ⟨(m 1 0 - m 0 1) * ((1 / 2) / Real.sqrt (m 2 2 - m 0 0 - m 1 1 + 1)),
          (m 0 2 + m 2 0) * ((1 / 2) / Real.sqrt (m 2 2 - m 0 0 - m 1 1 + 1)),
          (m 1 2 + m 2 1) * ((1 / 2) / Real.sqrt (m 2 2 - m 0 0 - m 1 1 + 1)),
          (1 / 2) * Real.sqrt (m 2 2 - m 0 0 - m 1 1 + 1)⟩ := by
  obtain ⟨r00, r11, r22, r01, r02, r12, c00, c11, c22, c01, c02, c12, k00, k01, k02, k10, k11,
    k12, k20, k21, k22⟩ := h
  obtain ⟨p, a, b, c, aa, bb, cc, ab, ac, bc⟩ := branch (m 2 2 - m 0 0 - m 1 1 + 1)
    (m 1 0 - m 0 1) (m 0 2 + m 2 0) (m 1 2 + m 2 1)
    (1 + m 0 0 + m 1 1 + m 2 2) (1 + m 0 0 - m 1 1 - m 2 2) (1 - m 0 0 + m 1 1 - m 2 2)
    (m 2 1 - m 1 2) (m 0 2 - m 2 0) (m 0 1 + m 1 0) (by linarith)
    (by linarith) (by linarith) (by linarith) (by linarith) (by linarith) (by linarith)
  exact ⟨by linarith, by linarith, by linarith, by linarith, by linarith, by linarith,
    by linarith, by linarith, by linarith, by linarith⟩

theorem rotToQuat_spec {m : Mat3 ℝ} (h : IsRot m) : QuatOf m (rotToQuat m) := by
  have e := h.entries
  unfold rotToQuat
  by_cases ht : m 0 0 + m 1 1 + m 2 2 > 0
  · simp only [if_pos ht]
    exact branch_w e ht
  · simp only [if_neg ht]
    by_cases h10 : m 1 1 > m 0 0
    · by_cases h2 : m 2 2 > m 1 1
      · simpa [h10, h2] using branch_z e ht (by linarith) (by linarith)
      · simpa [h10, h2] using branch_y e ht (by linarith) (by linarith)
    · by_cases h2 : m 2 2 > m 0 0
      · simpa [h10, h2] using branch_z e ht (by linarith) (by linarith)
      · simpa [h10, h2] using branch_x e ht (by linarith) (by linarith)

end Yac.Geom
