import Verif.Imu.JacLemmas
import Verif.Residual.Props

/-!
# The increments as functions of the biases
-/

namespace Yac.Imu
open Yac.Geom Yac.Stream Yac.Residual Matrix

/-- Speed and bias moved by `t` times `e`. -/
def sbAt (sb e : SB) (t : ℝ) : SB := ⟨sb.v + t • e.v, sb.bg + t • e.bg, sb.ba + t • e.ba⟩

theorem sbAt_zero (sb e : SB) : sbAt sb e 0 = sb := by
  ext i <;> simp [sbAt]

theorem skew_neg (u : Vec3 ℝ) : skew (-u) = -skew u := by
  ext i j; fin_cases i <;> fin_cases j <;> simp [skew]

theorem VDeriv.smul {n : Type} [Fintype n] {a : ℝ → n → ℝ} {a' : n → ℝ} {t0 : ℝ} (c : ℝ) (h : VDeriv a a' t0) :
    VDeriv (fun t => c • a t) (c • a') t0 := fun i => (h i).const_mul c

theorem MDeriv.add {m n : Type} [Fintype m] [Fintype n] {a b : ℝ → Matrix m n ℝ} {a' b' : Matrix m n ℝ} {t0 : ℝ}
    (ha : MDeriv a a' t0) (hb : MDeriv b b' t0) : MDeriv (fun t => a t + b t) (a' + b') t0 :=
  fun i j => (ha i j).fun_add (hb i j)

/-- How the increments `I t` at the biases `sb + t e` move at `t = 0`. -/
structure Path (e : SB) (I : ℝ → Integ) : Prop where
  q : Turns (fun t => (I t).q) (-((I 0).cross *ᵥ e.bg)) 0
  vel : VDeriv (fun t => (I t).acc_int) ((I 0).dv *ᵥ e.bg - (I 0).C_int *ᵥ e.ba) 0
  pos : VDeriv (fun t => (I t).acc_dbl) ((I 0).dp *ᵥ e.bg - (I 0).C_dbl *ᵥ e.ba) 0

theorem Path.start (e : SB) : Path e (fun _ => {}) := by
  refine ⟨⟨by simp [Quat.normSq], ?_, ?_, ?_, ?_⟩, ?_, ?_⟩
  · refine (hasDerivAt_const _ _).congr_deriv ?_; simp
  · refine (hasDerivAt_const _ _).congr_deriv ?_; simp
  · refine (hasDerivAt_const _ _).congr_deriv ?_; simp
  · refine (hasDerivAt_const _ _).congr_deriv ?_; simp
  · intro i; refine (hasDerivAt_const _ _).congr_deriv ?_; simp
  · intro i; refine (hasDerivAt_const _ _).congr_deriv ?_; simp

theorem line_deriv (c d : Vec3 ℝ) : VDeriv (fun t : ℝ => c - t • d) (-d) 0 := by
  intro i
  have := ((hasDerivAt_id (0 : ℝ)).mul_const (d i)).const_sub (c i)
  refine this.congr_deriv ?_
  simp

theorem bias_rate (C C1 X X1 : Mat3 ℝ) (a b c : Vec3 ℝ) :
    (C * skew (-(X *ᵥ b)) + C1 * skew (-(X1 *ᵥ b))) *ᵥ a + (C + C1) *ᵥ (-c) =
      (C * skew a * X + C1 * skew a * X1) *ᵥ b - (C + C1) *ᵥ c := by
  have h : ∀ D Y : Mat3 ℝ, (D * skew (-(Y *ᵥ b))) *ᵥ a = (D * skew a * Y) *ᵥ b := by
    intro D Y
    rw [← mulVec_mulVec, skew_mulVec _ a, mulVec_neg, mulVec_neg, mulVec_neg, neg_neg, mulVec_mulVec, mulVec_mulVec, Matrix.mul_assoc]
  rw [add_mulVec, h, h, mulVec_neg, add_mulVec (C * _ * _), sub_eq_add_neg]

theorem Path.step {re : Bool} {p : Params} {sb e : SB} {I : ℝ → Integ} (h : Path e I) (g : Seg) (hd : 0 < g.dt)
    (hl : LongStep ((1 / 2 : ℝ) • (g.w0 + g.w1) - sb.bg) g.dt) :
    Path e (fun t => integrate re p (sbAt sb e t) (I t) g) := by
  set w := (1 / 2 : ℝ) • (g.w0 + g.w1) - sb.bg with hw
  set a := (1 / 2 : ℝ) • (g.a0 + g.a1) - sb.ba with ha
  have ew : ∀ t : ℝ, (1 / 2 : ℝ) • (g.w0 + g.w1) - (sbAt sb e t).bg = w - t • e.bg := by
    intro t; rw [hw]; simp only [sbAt]; abel
  have ea : ∀ t : ℝ, (1 / 2 : ℝ) • (g.a0 + g.a1) - (sbAt sb e t).ba = a - t • e.ba := by
    intro t; rw [ha]; simp only [sbAt]; abel
  have hdq := stepQuat_turns w e.bg hd hl
  have hq1 := h.q.mul hdq
  have e0 : w - (0 : ℝ) • e.bg = w := by rw [zero_smul, sub_zero]
  have a0 : a - (0 : ℝ) • e.ba = a := by rw [zero_smul, sub_zero]
  -- the increments at zero
  set cross1 := (stepQuat w g.dt).inverse.toRot * (I 0).cross + g.dt • rightJacobian (g.dt • w) with hc1
  have hη : (stepQuat (w - (0 : ℝ) • e.bg) g.dt).inverse.toRot *ᵥ (-((I 0).cross *ᵥ e.bg)) +
      -(g.dt • (rightJacobian (g.dt • w) *ᵥ e.bg)) = -(cross1 *ᵥ e.bg) := by
    rw [e0, hc1, add_mulVec, smul_mulVec, mulVec_neg, mulVec_mulVec]
    abel
  rw [hη] at hq1
  have hC := h.q.rot
  have hC1 := hq1.rot
  have hA := (MDeriv.add hC hC1).mulVec (line_deriv a e.ba)
  simp only [e0, a0] at hA
  set C := (I 0).q.toRot with hCd
  set C1 := ((I 0).q.mul (stepQuat w g.dt)).toRot with hC1d
  have hY : (C * skew (-((I 0).cross *ᵥ e.bg)) + C1 * skew (-(cross1 *ᵥ e.bg))) *ᵥ a + (C + C1) *ᵥ (-e.ba) =
      (C * skew a * (I 0).cross + C1 * skew a * cross1) *ᵥ e.bg - (C + C1) *ᵥ e.ba := by
    exact bias_rate _ _ _ _ _ _ _
  rw [hY] at hA
  have hcr : (integrate re p (sbAt sb e 0) (I 0) g).cross = cross1 := by
    simp only [integrate, ew, e0, hc1]
  have hdv : (integrate re p (sbAt sb e 0) (I 0) g).dv = (I 0).dv + ((1 / 2 : ℝ) * g.dt) •
      (C * skew a * (I 0).cross + C1 * skew a * cross1) := by
    simp only [integrate, ew, ea, e0, a0, hc1, hCd, hC1d]
  have hdp : (integrate re p (sbAt sb e 0) (I 0) g).dp = (I 0).dp + (g.dt • (I 0).dv + ((1 / 4 : ℝ) * g.dt * g.dt) •
      (C * skew a * (I 0).cross + C1 * skew a * cross1)) := by
    simp only [integrate, ew, ea, e0, a0, hc1, hCd, hC1d]
  have hci : (integrate re p (sbAt sb e 0) (I 0) g).C_int = (I 0).C_int + ((1 / 2 : ℝ) * g.dt) • (C + C1) := by
    simp only [integrate, ew, ea, e0, a0, hCd, hC1d]
  have hcd : (integrate re p (sbAt sb e 0) (I 0) g).C_dbl = (I 0).C_dbl + (g.dt • (I 0).C_int +
      ((1 / 4 : ℝ) * g.dt * g.dt) • (C + C1)) := by
    simp only [integrate, ew, ea, e0, a0, hCd, hC1d]
  refine ⟨?_, ?_, ?_⟩
  · simp only [hcr]
    simp only [integrate, ew]
    exact hq1
  · have hb := h.vel.add (VDeriv.smul ((1 / 2 : ℝ) * g.dt) hA)
    have hz : (integrate re p (sbAt sb e 0) (I 0) g).dv *ᵥ e.bg - (integrate re p (sbAt sb e 0) (I 0) g).C_int *ᵥ e.ba =
        (I 0).dv *ᵥ e.bg - (I 0).C_int *ᵥ e.ba + ((1 / 2 : ℝ) * g.dt) •
          ((C * skew a * (I 0).cross + C1 * skew a * cross1) *ᵥ e.bg - (C + C1) *ᵥ e.ba) := by
      rw [hdv, hci]
      generalize C * skew a * (I 0).cross + C1 * skew a * cross1 = Y
      rw [add_mulVec, add_mulVec (I 0).C_int, smul_mulVec, smul_mulVec, smul_sub]
      abel
    rw [hz]
    simp only [integrate, ew, ea]
    exact hb
  · have hb := h.pos.add ((VDeriv.smul g.dt h.vel).add (VDeriv.smul ((1 / 4 : ℝ) * g.dt * g.dt) hA))
    have hz : (integrate re p (sbAt sb e 0) (I 0) g).dp *ᵥ e.bg - (integrate re p (sbAt sb e 0) (I 0) g).C_dbl *ᵥ e.ba =
        (I 0).dp *ᵥ e.bg - (I 0).C_dbl *ᵥ e.ba + (g.dt • ((I 0).dv *ᵥ e.bg - (I 0).C_int *ᵥ e.ba) +
          ((1 / 4 : ℝ) * g.dt * g.dt) •
          ((C * skew a * (I 0).cross + C1 * skew a * cross1) *ᵥ e.bg - (C + C1) *ᵥ e.ba)) := by
      rw [hdp, hcd]
      generalize C * skew a * (I 0).cross + C1 * skew a * cross1 = Y
      generalize C + C1 = Z
      simp only [add_mulVec, smul_mulVec, smul_sub]
      abel
    rw [hz]
    simp only [integrate, ew, ea]
    exact hb

theorem Path.fold {re : Bool} {p : Params} {sb e : SB} (l : List Seg) (hd : ∀ g ∈ l, 0 < g.dt)
    (hl : ∀ g ∈ l, LongStep ((1 / 2 : ℝ) • (g.w0 + g.w1) - sb.bg) g.dt) {I : ℝ → Integ} (h : Path e I) :
    Path e (fun t => l.foldl (integrate re p (sbAt sb e t)) (I t)) := by
  induction l generalizing I with
  | nil => exact h
  | cons g l ih =>
    simp only [List.foldl_cons]
    exact ih (fun g' hg => hd g' (List.mem_cons_of_mem _ hg)) (fun g' hg => hl g' (List.mem_cons_of_mem _ hg))
      (h.step (re := re) (p := p) g (hd g List.mem_cons_self) (hl g List.mem_cons_self))

theorem stepQuat_unit {w : Vec3 ℝ} {dt : ℝ} (hd : 0 < dt) (h : LongStep w dt) : (stepQuat w dt).normSq = 1 := by
  have := (stepQuat_turns w 0 hd h).unit
  rwa [smul_zero, sub_zero] at this

/-- In `redoPreintegration` the derivative of the rotation is that of `cross`, turned into the frame of the start. -/
theorem fold_dalpha {p : Params} {sb : SB} (l : List Seg) (hd : ∀ g ∈ l, 0 < g.dt)
    (hl : ∀ g ∈ l, LongStep ((1 / 2 : ℝ) • (g.w0 + g.w1) - sb.bg) g.dt) (I : Integ)
    (h : I.q.normSq = 1 ∧ I.dalpha = I.q.toRot * I.cross) :
    (l.foldl (integrate true p sb) I).q.normSq = 1 ∧ (l.foldl (integrate true p sb) I).dalpha =
      (l.foldl (integrate true p sb) I).q.toRot * (l.foldl (integrate true p sb) I).cross := by
  induction l generalizing I with
  | nil => exact h
  | cons g l ih =>
    rw [List.foldl_cons]
    apply ih (fun g' hg => hd g' (List.mem_cons_of_mem _ hg)) (fun g' hg => hl g' (List.mem_cons_of_mem _ hg))
    have hu := stepQuat_unit (hd g List.mem_cons_self) (hl g List.mem_cons_self)
    simp only [integrate]
    generalize (1 / 2 : ℝ) • (g.w0 + g.w1) - sb.bg = w at hu ⊢
    refine ⟨by rw [normSq_mul, h.1, hu, one_mul], ?_⟩
    have e : I.q.toRot * (stepQuat w g.dt).toRot * ((stepQuat w g.dt).toRotᵀ * I.cross) = I.q.toRot * I.cross := by
      rw [Matrix.mul_assoc, ← Matrix.mul_assoc _ _ᵀ, toRot_mul_transpose _ hu, Matrix.one_mul]
    rw [if_pos trivial, toRot_mul h.1 hu, inverse_unit hu, Matrix.mul_add, e, h.2, Matrix.mul_smul]

/-- The data turns fast: the rate less the bias has a component of at least `m` along some axis
throughout, and every step turns by at least 1e-4; or does not turn at all. -/
def Brisk (d : Imu (Vec3 ℝ)) (bg : Vec3 ℝ) (tstart tend : ℤ) : Prop :=
  (∀ x ∈ d.gyr, x = bg) ∨ ∃ (u : Vec3 ℝ) (m : ℝ), dot3 u u = 1 ∧ (∀ x ∈ d.gyr, m ≤ dot3 u (x - bg)) ∧
    ∀ h ∈ steps d.ts tstart tend, 1 / 10 ^ 4 ≤ m * h

theorem dot_le_norm {u v : Vec3 ℝ} (hu : dot3 u u = 1) : dot3 u v ≤ norm3 v := by
  unfold norm3
  apply Real.le_sqrt_of_sq_le
  have h : dot3 u v ^ 2 ≤ dot3 u u * dot3 v v := by
    simp only [dot3]
    nlinarith [sq_nonneg (u 0 * v 1 - u 1 * v 0), sq_nonneg (u 0 * v 2 - u 2 * v 0), sq_nonneg (u 1 * v 2 - u 2 * v 1)]
  rwa [hu, one_mul] at h

theorem Run.long {re : Bool} {p : Params} {sb : SB} {d : Imu (Vec3 ℝ)} {tstart tend : ℤ} {s : Loop} {l : List Seg}
    (h : Run re p sb d tstart tend s l) (hs : d.ts.Pairwise (· < ·)) (hb : Brisk d sb.bg tstart tend) :
    ∀ g ∈ l, LongStep ((1 / 2 : ℝ) • (g.w0 + g.w1) - sb.bg) g.dt := by
  rcases hb with hb | ⟨u, m, hu, hm, hst⟩
  · intro g hg
    left
    have hK : Hull (fun x => x = sb.bg) := by
      intro x y r hx hy _ _
      rw [hx, hy]; unfold lerp
      rw [← add_smul]; simp
    obtain ⟨h0, h1⟩ := h.hull _ hK hb g hg
    rw [h0, h1, mean_self, sub_self]
  · have hK : Hull (fun x => m ≤ dot3 u (x - sb.bg)) := by
      intro x y r hx hy h0 h1
      have : dot3 u (lerp r x y - sb.bg) = (1 - r) * dot3 u (x - sb.bg) + r * dot3 u (y - sb.bg) := by
        simp [lerp, dot3]; ring
      show m ≤ dot3 u (lerp r x y - sb.bg)
      rw [this]
      nlinarith
    intro g hg
    right
    obtain ⟨h0, h1⟩ := h.hull _ hK hm g hg
    have e : dot3 u ((1 / 2 : ℝ) • (g.w0 + g.w1) - sb.bg) = 1 / 2 * dot3 u (g.w0 - sb.bg) + 1 / 2 * dot3 u (g.w1 - sb.bg) := by
      simp [dot3]; ring
    have hn := dot_le_norm (v := (1 / 2 : ℝ) • (g.w0 + g.w1) - sb.bg) hu
    rw [e] at hn
    have hmem : g.dt ∈ steps d.ts tstart tend := by
      have hc := h.cut hs
      have : g.dt ∈ l.map Seg.dt := List.mem_map.mpr ⟨g, hg, rfl⟩
      rw [hc] at this
      split at this
      · exact this
      · cases this
    have := hst _ hmem
    have hp := h.pos g hg
    nlinarith

theorem Run.path {re : Bool} {p : Params} {sb : SB} {d : Imu (Vec3 ℝ)} {tstart tend : ℤ} {s : Loop} {l : List Seg}
    (h : Run re p sb d tstart tend s l) (hs : d.ts.Pairwise (· < ·)) (hb : Brisk d sb.bg tstart tend) (e : SB) :
    Path e (fun t => l.foldl (integrate re p (sbAt sb e t)) {}) :=
  Path.fold l h.pos (h.long hs hb) (Path.start e)

end Yac.Imu
