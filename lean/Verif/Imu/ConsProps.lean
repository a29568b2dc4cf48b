import Verif.Imu.ErrProps

/-!
# C44: propagation and residual agree
-/

namespace Yac.Imu
open Yac.Geom Yac.Stream Yac.Residual Matrix

/-- The same increments, except for the derivative of the attitude. -/
def Alike (I J : Integ) : Prop := I = { J with dalpha := I.dalpha }

theorem Alike.step {p : Params} {sb : SB} {I J : Integ} (h : Alike I J) (g : Seg) :
    Alike (integrate false p sb I g) (integrate true p sb J g) := by
  unfold Alike at h ⊢
  rw [h]
  rfl

/-- The same state of the loop. -/
def AlikeL (s s' : Loop) : Prop := Alike s.I s'.I ∧ s'.time = s.time ∧ s'.started = s.started ∧ s'.count = s.count

theorem body_alike {p : Params} {sb : SB} {tend : ℤ} {s s' : Loop} (h : AlikeL s s') (w0 w1 a0 a1 : Vec3 ℝ) (t0 t1 : ℤ)
    (hst : s.started = true ∨ s.time = t0) {b : Loop × Bool} (hb : body false p sb tend s w0 w1 a0 a1 t0 t1 = .ok b) :
    ∃ b', body true p sb tend s' w0 w1 a0 a1 t0 t1 = .ok b' ∧ AlikeL b.1 b'.1 ∧ b'.2 = b.2 := by
  obtain ⟨hI, ht, hs, hcn⟩ := h
  unfold body at hb ⊢
  simp only [ht, hs] at hb ⊢
  by_cases h1 : t1 - s.time < 0
  · rw [if_pos h1] at hb ⊢
    injection hb with hb; subst hb
    exact ⟨_, rfl, ⟨hI, ht, hs, hcn⟩, rfl⟩
  rw [if_neg h1] at hb ⊢
  by_cases h2 : ns2sec ((if tend < t1 then tend else t1) - s.time) ≤ 0
  · rw [if_pos h2] at hb ⊢
    injection hb with hb; subst hb
    exact ⟨_, rfl, ⟨hI, ht, hs, hcn⟩, rfl⟩
  rw [if_neg h2] at hb ⊢
  by_cases h3 : tend < t1 ∧ t1 = t0
  · rw [if_pos h3] at hb; cases hb
  rw [if_neg h3] at hb ⊢
  have e : s.started = true ∨ startInterval true (if tend < t1 then tend else t1) s.time t0 =
      startInterval false (if tend < t1 then tend else t1) s.time t0 := by
    rcases hst with h | h
    · exact Or.inl h
    · right; simp [startInterval, h]
  rcases e with e | e
  · have n4 : ∀ q : Prop, ¬ (s.started = false ∧ q) := by rintro q ⟨h, -⟩; rw [e] at h; cases h
    rw [if_neg (n4 _)] at hb ⊢
    injection hb with hb; subst hb
    refine ⟨_, rfl, ⟨?_, rfl, rfl, by rw [hcn]⟩, rfl⟩
    simp only [e, atStart, if_true]
    exact hI.step _
  · rw [e]
    by_cases h4 : s.started = false ∧ startInterval false (if tend < t1 then tend else t1) s.time t0 = 0
    · rw [if_pos h4] at hb; cases hb
    rw [if_neg h4] at hb ⊢
    injection hb with hb; subst hb
    exact ⟨_, rfl, ⟨hI.step _, rfl, rfl, by rw [hcn]⟩, rfl⟩

theorem loop_alike {p : Params} {sb : SB} {d : Imu (Vec3 ℝ)} {tend : ℤ} (hp : d.ts.Pairwise (· < ·)) (n k : Nat) {s s' r : Loop}
    (h : AlikeL s s') (hlt : s.time < tend) (hst : s.started = true ∨ d.ts[k]? = some s.time)
    (hr : loop false p sb d tend n k s = .ok r) (hend : r.time = tend) :
    ∀ m, ∃ r', loop true p sb d tend (n + m) k s' = .ok r' ∧ AlikeL r r' := by
  induction n generalizing k s s' with
  | zero =>
    injection hr with hr; subst hr
    omega
  | succ n ih =>
    intro m
    rw [loop] at hr
    rw [show n + 1 + m = (n + m) + 1 by omega, loop]
    cases e1 : samples d k with
    | error e => rw [e1] at hr; cases hr
    | ok x =>
    cases e2 : at? d.ts k with
    | error e => rw [e1, e2] at hr; cases hr
    | ok t0 =>
    cases e3 : nextTime d tend k with
    | error e => rw [e1, e2, e3] at hr; cases hr
    | ok t1 =>
    rw [e1, e2, e3] at hr
    change (body false p sb tend s x.1 x.2.1 x.2.2.1 x.2.2.2 t0 t1 >>= fun b =>
      if b.2 then Except.ok b.1 else loop false p sb d tend n (k + 1) b.1) = .ok r at hr
    cases e4 : body false p sb tend s x.1 x.2.1 x.2.2.1 x.2.2.2 t0 t1 with
    | error e => rw [e4] at hr; cases hr
    | ok b =>
    rw [e4] at hr
    change (if b.2 then Except.ok b.1 else loop false p sb d tend n (k + 1) b.1) = .ok r at hr
    have ht0 := at_ok.mp e2
    obtain ⟨b', k1, k2, k3⟩ := body_alike (p := p) (sb := sb) (tend := tend) h x.1 x.2.1 x.2.2.1 x.2.2.2 t0 t1
      (hst.imp id (fun hh => by rw [ht0] at hh; injection hh with hh; exact hh.symm)) e4
    change ∃ r', (body true p sb tend s' x.1 x.2.1 x.2.2.1 x.2.2.2 t0 t1 >>= fun b =>
      if b.2 then Except.ok b.1 else loop true p sb d tend (n + m) (k + 1) b.1) = .ok r' ∧ AlikeL r r'
    rw [k1]
    change ∃ r', (if b'.2 then Except.ok b'.1 else loop true p sb d tend (n + m) (k + 1) b'.1) = .ok r' ∧ AlikeL r r'
    rw [k3]
    by_cases hb2 : b.2 = true
    · rw [if_pos hb2] at hr ⊢
      injection hr with hr; subst hr
      exact ⟨_, rfl, k2⟩
    · rw [if_neg hb2] at hr ⊢
      rcases body_cases e4 with ⟨c1, c2, -⟩ | ⟨c1, g, -, -, -, c2, -⟩
      · -- a skipped sample: only after the first step
        subst c1
        refine ih (k := k + 1) k2 hlt ?_ hr m
        rcases hst with hst | hst
        · exact Or.inl hst
        · exfalso
          rw [ht0] at hst
          injection hst with hst
          have : t0 < t1 ∨ t1 = tend := by
            unfold nextTime at e3
            by_cases hk : k + 1 = d.size
            · rw [if_pos hk] at e3
              injection e3 with e3
              exact Or.inr e3.symm
            · rw [if_neg hk] at e3
              left
              have h1 := at_ok.mp e3
              obtain ⟨q0, p0⟩ := List.getElem?_eq_some_iff.mp ht0
              obtain ⟨q1, p1⟩ := List.getElem?_eq_some_iff.mp h1
              rw [← p0, ← p1]
              exact List.pairwise_iff_getElem.mp hp k (k + 1) q0 q1 (by omega)
          omega
      · rw [c2] at hb2 k2 hr
        simp only [decide_eq_true_eq] at hb2
        exact ih (k := k + 1) k2 (by show min tend t1 < tend; omega) (Or.inl rfl) hr m

/-- If the first sample is at the start, `propagation` and `redoPreintegration` agree. -/
theorem agree {p : Params} {sb : SB} {d : Imu (Vec3 ℝ)} {tstart tend : ℤ} (hc : Covers d tstart tend)
    (hs : d.ts.Pairwise (· < ·)) (ht : tstart < tend) (hf : d.ts.head? = some tstart) :
    ∃ s s', preint p sb d tstart tend = .ok s ∧ redo p sb d tstart tend = .ok s' ∧ AlikeL s s' := by
  obtain ⟨b, hb, hbe⟩ := hc.last
  have e : preint p sb d tstart tend = loop false p sb d tend (d.size - 1) 0 { time := tstart } := by
    unfold preint
    rw [hf, hb]
    simp only
    rw [if_neg (by omega), if_neg (by omega)]
  have hpos : 0 < d.ts.length := by
    cases h : d.ts with
    | nil => rw [h] at hf; cases hf
    | cons x xs => simp
  have hsz : d.size = d.ts.length := rfl
  have h0 : d.ts[0]? = some tstart := by rw [← List.head?_eq_getElem?]; exact hf
  obtain ⟨s, e1, e2, -⟩ := loop_ok (re := false) (p := p) (sb := sb) hc.full hb hbe (d.size - 1) 0
    { time := tstart } (by omega) ht h0 (by omega) (fun _ => le_refl _)
  obtain ⟨s', e3, e4⟩ := loop_alike hs (d.size - 1) 0 (s := { time := tstart }) (s' := { time := tstart })
    ⟨by unfold Alike; rfl, rfl, rfl, rfl⟩ ht (Or.inr h0) e1 e2 1
  rw [show d.size - 1 + 1 = d.size by rw [hsz]; omega] at e3
  exact ⟨s, s', e.trans e1, e3, e4⟩

theorem conj_cancel {q r : Quat ℝ} (hq : q.normSq = 1) : (q.inverse.mul r) = q.conj.mul r := by
  have : q.inverse = q.conj := by unfold Quat.inverse; simp [hq, Quat.conj]
  rw [this]

/-- The orientation error vanishes exactly if the attitudes match. -/
theorem orient_zero {D q0 q1 : Quat ℝ} (hD : D.normSq = 1) (h0 : q0.normSq = 1) (h1 : q1.normSq = 1) :
    (2 : ℝ) • Quat.vec (D.mul (q1.inverse.mul q0)) = 0 ↔ q1.toRot = q0.toRot * D.toRot := by
  rw [conj_cancel h1, ← toRot_mul h0 hD]
  have key : Quat.vec (D.mul (q1.conj.mul q0)) = 0 ↔ Quat.vec ((q1.conj.mul q0).mul D) = 0 := by
    -- a product of unit quaternions is real in either order
    have hz : ∀ a b : Quat ℝ, a.normSq = 1 → b.normSq = 1 → Quat.vec (a.mul b) = 0 → Quat.vec (b.mul a) = 0 := by
      intro a b ha hb h
      have e0 := congrFun h 0
      have e1 := congrFun h 1
      have e2 := congrFun h 2
      simp only [Quat.vec, Quat.mul, Matrix.cons_val_zero, Matrix.cons_val_one, Matrix.cons_val, Pi.zero_apply] at e0 e1 e2
      have ha' : a.w * a.w + a.x * a.x + a.y * a.y + a.z * a.z = 1 := ha
      -- b = (a.mul b).w • conj a
      set c := a.w * b.w - a.x * b.x - a.y * b.y - a.z * b.z with hc
      have bx : b.x = -c * a.x := by
        rw [hc]
        linear_combination a.w * e0 - a.y * (e2) + a.z * e1 - b.x * ha'
      have by' : b.y = -c * a.y := by
        rw [hc]
        linear_combination a.w * e1 - a.z * e0 + a.x * e2 - b.y * ha'
      have bz : b.z = -c * a.z := by
        rw [hc]
        linear_combination a.w * e2 - a.x * e1 + a.y * e0 - b.z * ha'
      have bw : b.w = c * a.w := by
        rw [hc]
        linear_combination a.x * e0 + a.y * e1 + a.z * e2 - b.w * ha'
      apply vec3_ext <;> simp [Quat.vec, Quat.mul, bx, by', bz, bw] <;> ring
    have hn : (q1.conj.mul q0).normSq = 1 := by
      rw [normSq_mul, h0]
      have : q1.conj.normSq = q1.normSq := by simp [Quat.normSq, Quat.conj]
      rw [this, h1, one_mul]
    exact ⟨hz _ _ hD hn, hz _ _ hn hD⟩
  have assoc : (q1.conj.mul q0).mul D = q1.conj.mul (q0.mul D) := by
    ext <;> simp [Quat.mul] <;> ring
  rw [assoc] at key
  set r := q0.mul D with hr
  have hrn : r.normSq = 1 := by rw [hr, normSq_mul, h0, hD, one_mul]
  constructor
  · intro h
    have h := key.mp (by
      have := congrArg (fun v => (1 / 2 : ℝ) • v) h
      simpa [smul_smul] using this)
    have e0 := congrFun h 0
    have e1 := congrFun h 1
    have e2 := congrFun h 2
    simp only [Quat.vec, Quat.mul, Quat.conj, Matrix.cons_val_zero, Matrix.cons_val_one, Matrix.cons_val, Pi.zero_apply] at e0 e1 e2
    have h1' : q1.w * q1.w + q1.x * q1.x + q1.y * q1.y + q1.z * q1.z = 1 := h1
    have hr' : r.w * r.w + r.x * r.x + r.y * r.y + r.z * r.z = 1 := hrn
    set c := q1.w * r.w + q1.x * r.x + q1.y * r.y + q1.z * r.z with hc
    have bw : r.w = c * q1.w := by rw [hc]; linear_combination -(q1.x * e0 + q1.y * e1 + q1.z * e2) - r.w * h1'
    have bx : r.x = c * q1.x := by rw [hc]; linear_combination q1.w * e0 + q1.y * e2 - q1.z * e1 - r.x * h1'
    have by' : r.y = c * q1.y := by rw [hc]; linear_combination q1.w * e1 + q1.z * e0 - q1.x * e2 - r.y * h1'
    have bz : r.z = c * q1.z := by rw [hc]; linear_combination q1.w * e2 + q1.x * e1 - q1.y * e0 - r.z * h1'
    have hcc : c * c = 1 := by
      rw [bw, bx, by', bz] at hr'
      linear_combination hr' - c * c * h1'
    clear_value c
    clear hc hr' key assoc e0 e1 e2 h
    apply mat3_eq <;> simp only [Quat.toRot, Matrix.of_apply, Matrix.cons_val_zero, Matrix.cons_val_one, Matrix.cons_val,
      bw, bx, by', bz]
    · linear_combination (2 * q1.y * q1.y + 2 * q1.z * q1.z) * hcc
    · linear_combination -(2 * q1.y * q1.x - 2 * q1.z * q1.w) * hcc
    · linear_combination -(2 * q1.z * q1.x + 2 * q1.y * q1.w) * hcc
    · linear_combination -(2 * q1.y * q1.x + 2 * q1.z * q1.w) * hcc
    · linear_combination (2 * q1.x * q1.x + 2 * q1.z * q1.z) * hcc
    · linear_combination -(2 * q1.z * q1.y - 2 * q1.x * q1.w) * hcc
    · linear_combination -(2 * q1.z * q1.x - 2 * q1.y * q1.w) * hcc
    · linear_combination -(2 * q1.z * q1.y + 2 * q1.x * q1.w) * hcc
    · linear_combination (2 * q1.x * q1.x + 2 * q1.y * q1.y) * hcc
  · intro h
    have hpm := (QuatOf.of_toRot q1 h1).pm (show QuatOf q1.toRot r by rw [h]; exact QuatOf.of_toRot r hrn)
    have : Quat.vec (q1.conj.mul r) = 0 := by
      rcases hpm with hpm | hpm
      · rw [hpm]
        apply vec3_ext <;> simp [Quat.vec, Quat.mul, Quat.conj] <;> ring
      · rw [hpm]
        apply vec3_ext <;> simp [Quat.vec, Quat.mul, Quat.conj] <;> ring
    rw [key.mpr this, smul_zero]

/-- C44: if the first sample is at the start of the interval, the error of the residual vanishes exactly for the state
that `propagation` predicts (attitude as a rotation; data that does not turn or turns by at least 1e-4 in every step). -/
theorem C44_consistent (llt : Mat15 → Mat15) (p : Params) (d : Imu (Vec3 ℝ)) (t0 t1 : ℤ) (x0 x1 : Fin 7 → ℝ) (sb0 sb1 : SB)
    (hx0 : UnitPose x0) (hx1 : UnitPose x1) (hc : Covers d t0 t1) (hs : d.ts.Pairwise (· < ·)) (ht : t0 < t1)
    (hf : d.ts.head? = some t0) (hn : Noisy p) (hb : Brisk d sb0.bg t0 t1) :
    ∃ out o, propagation p d (tfParams x0) sb0 t0 t1 = .ok out ∧ evaluate llt p d t0 t1 0 x0 x1 sb0 sb1 = .ok o ∧
      (o.raw = 0 ↔ tfRot (tfParams x1) = tfRot out.T ∧ tfTrans (tfParams x1) = tfTrans out.T ∧ sb1 = out.sb) := by
  obtain ⟨s, s', h1, h2, ⟨hI, -, -, -⟩⟩ := agree (p := p) (sb := sb0) hc hs ht hf
  obtain ⟨s2, l, g1, g2, g3⟩ := redo_run p sb0 hc ht
  rw [h2] at g1
  injection g1 with g1
  subst g1
  have hpd : s'.I.P.PosDef := by
    rw [g2.fold]; exact fold_pd _ hn _ l g2.pos _ PosSemidef.zero g3
  have hu : s'.I.q.normSq = 1 := by
    have := (g2.path hs hb ⟨0, 0, 0⟩).q.unit
    simp only [sbAt_zero] at this
    rwa [g2.fold]
  have hdt : s'.I.dt = ns2sec (t1 - t0) := g2.dt
  have r0 := unit_rot hx0
  have r1 := unit_rot hx1
  have q0 := tf_of_rot r0
  have q1 := tf_of_rot r1
  refine ⟨_, _, by unfold propagation; rw [h1]; rfl,
    evaluate_ok llt p d t0 t1 0 x0 x1 sb0 sb1 (by rw [add_zero, add_zero]; exact h2) (information_pd hpd), ?_⟩
  show error p (tfParams x0) (tfParams x1) sb0 sb1 (ns2sec (t1 - t0)) s'.I = 0 ↔
    tfRot (tfParams x1) = tfRot (moved p (tfParams x0) sb0 s.I).1 ∧
    tfTrans (tfParams x1) = tfTrans (moved p (tfParams x0) sb0 s.I).1 ∧ sb1 = (moved p (tfParams x0) sb0 s.I).2
  unfold Alike at hI
  have aq : s.I.q = s'.I.q := by rw [hI]
  have av : s.I.acc_int = s'.I.acc_int := by rw [hI]
  have ap : s.I.acc_dbl = s'.I.acc_dbl := by rw [hI]
  have ad : s.I.dt = s'.I.dt := by rw [hI]
  have hm : tfRot (moved p (tfParams x0) sb0 s.I).1 = tfRot (tfParams x0) * s'.I.q.toRot := by
    unfold moved tfQuat
    simp only
    rw [tfRot_tf, aq, toRot_mul q0.1 hu, q0.2]
  have ht : tfTrans (moved p (tfParams x0) sb0 s.I).1 = tfTrans (tfParams x0) + ns2sec (t1 - t0) • sb0.v +
      tfRot (tfParams x0) *ᵥ s'.I.acc_dbl - ((1 / 2 : ℝ) * ns2sec (t1 - t0) * ns2sec (t1 - t0)) • gW p := by
    unfold moved tfQuat
    simp only
    rw [tfTrans_tf, ad, hdt, ap]
  have hsb : (moved p (tfParams x0) sb0 s.I).2 = ⟨sb0.v + (tfRot (tfParams x0) *ᵥ s'.I.acc_int - ns2sec (t1 - t0) • gW p),
      sb0.bg, sb0.ba⟩ := by
    unfold moved
    simp only
    rw [ad, hdt, av]
  rw [hm, ht, hsb]
  have ho := orient_zero hu q0.1 q1.1
  rw [q0.2, q1.2] at ho
  rw [← ho]
  -- vectors in the rotated frame
  have hCC : tfRot (tfParams x0) * (tfRot (tfParams x0))ᵀ = 1 := r0.1
  have hCt : (tfRot (tfParams x0))ᵀ * tfRot (tfParams x0) = 1 := mul_eq_one_comm.mp hCC
  have hrot : ∀ u a : Vec3 ℝ, (tfRot (tfParams x0))ᵀ *ᵥ u + a = 0 ↔ u = -(tfRot (tfParams x0) *ᵥ a) := by
    intro u a
    constructor
    · intro h
      have := congrArg (fun x => tfRot (tfParams x0) *ᵥ x) h
      simp only [mulVec_add, mulVec_mulVec, mulVec_zero, hCC, one_mulVec] at this
      exact eq_neg_of_add_eq_zero_left this
    · intro h
      rw [h, mulVec_neg, mulVec_mulVec, hCt, one_mulVec, neg_add_cancel]
  have hz : error p (tfParams x0) (tfParams x1) sb0 sb1 (ns2sec (t1 - t0)) s'.I = 0 ↔
      ((tfRot (tfParams x0))ᵀ *ᵥ dpW p (tfParams x0) (tfParams x1) sb0 (ns2sec (t1 - t0)) + s'.I.acc_dbl = 0) ∧
      ((2 : ℝ) • Quat.vec (s'.I.q.mul ((tfQuatOf (tfParams x1)).inverse.mul (tfQuatOf (tfParams x0)))) = 0) ∧
      ((tfRot (tfParams x0))ᵀ *ᵥ dvW p sb0 sb1 (ns2sec (t1 - t0)) + s'.I.acc_int = 0) ∧
      sb0.bg - sb1.bg = 0 ∧ sb0.ba - sb1.ba = 0 := by
    constructor
    · intro h
      refine ⟨?_, ?_, ?_, ?_, ?_⟩ <;> funext a
      · exact congrFun h (0, a)
      · exact congrFun h (1, a)
      · exact congrFun h (2, a)
      · exact congrFun h (3, a)
      · exact congrFun h (4, a)
    · rintro ⟨b0, b1, b2, b3, b4⟩
      funext ⟨i, a⟩
      fin_cases i
      · exact congrFun b0 a
      · exact congrFun b1 a
      · exact congrFun b2 a
      · exact congrFun b3 a
      · exact congrFun b4 a
  rw [hz, hrot, hrot]
  constructor
  · rintro ⟨b0, b1, b2, b3, b4⟩
    refine ⟨b1, ?_, ?_⟩
    · funext a
      have := congrFun b0 a
      simp only [dpW, Pi.add_apply, Pi.sub_apply, Pi.neg_apply] at this ⊢
      linarith
    · ext a
      · have := congrFun b2 a
        simp only [dvW, Pi.add_apply, Pi.sub_apply, Pi.neg_apply] at this ⊢
        linarith
      · have := congrFun b3 a
        simp only [Pi.sub_apply, Pi.zero_apply] at this ⊢
        linarith
      · have := congrFun b4 a
        simp only [Pi.sub_apply, Pi.zero_apply] at this ⊢
        linarith
  · rintro ⟨b1, b0, b2⟩
    refine ⟨?_, b1, ?_, ?_, ?_⟩
    · rw [dpW, b0]; abel
    · funext a
      rw [b2]
      simp only [dvW, Pi.add_apply, Pi.sub_apply, Pi.neg_apply, Pi.smul_apply, smul_eq_mul]
      ring
    · rw [b2, sub_self]
    · rw [b2, sub_self]

theorem bind_val {α β : Type} (x : α) (f : α → Except Fault β) : ((Except.ok x : Except Fault α) >>= f) = f x := rfl

/-- Two samples. -/
def two (b : ℤ) (x y : Vec3 ℝ) : Imu (Vec3 ℝ) := ⟨[0, b], [x, y], [0, 0]⟩

theorem integrate_still (re : Bool) (p : Params) (g : Seg) (h0 : g.w0 = 0) (h1 : g.w1 = 0) :
    (integrate re p ⟨0, 0, 0⟩ {} g).acc_int = (g.dt / 2) • (g.a0 + g.a1) := by
  have hz : stepQuat 0 g.dt = ⟨1, 0, 0, 0⟩ := by simp [stepQuat, norm3, dot3]
  have hI : (⟨1, 0, 0, 0⟩ : Quat ℝ).toRot = 1 := by apply mat3_eq <;> simp [Quat.toRot]
  have hm : Quat.mul (⟨1, 0, 0, 0⟩ : Quat ℝ) ⟨1, 0, 0, 0⟩ = ⟨1, 0, 0, 0⟩ := by simp [Quat.mul]
  simp only [integrate, h0, h1, add_zero, smul_zero, sub_zero, hz, hm, hI, zero_add]
  rw [add_mulVec, one_mulVec, ← two_smul ℝ, smul_smul, smul_smul]
  congr 1
  ring

/-- Where the interval starts between two samples, `propagation` does not interpolate the first measurement: with the
specific force rising linearly from 0 to 2 in two seconds, the velocity gained in the second second is 1 instead of
3/2, which `redoPreintegration` gets right; so the residual of the predicted state is not zero. -/
theorem C44_start_refuted (p : Params) (hg : p.g = 0) : ∃ (out : Output) (s : Loop),
    Covers (two (2 * 10 ^ 9) 0 ![2, 0, 0]) (10 ^ 9) (2 * 10 ^ 9) ∧
    propagation p (two (2 * 10 ^ 9) 0 ![2, 0, 0]) 1 ⟨0, 0, 0⟩ (10 ^ 9) (2 * 10 ^ 9) = .ok out ∧ out.sb.v = ![1, 0, 0] ∧
    redo p ⟨0, 0, 0⟩ (two (2 * 10 ^ 9) 0 ![2, 0, 0]) (10 ^ 9) (2 * 10 ^ 9) = .ok s ∧ s.I.acc_int = ![3 / 2, 0, 0] := by
  have hone : tfRot (1 : Mat4 ℝ) = 1 := by apply mat3_eq <;> simp [tfRot]
  have hgW : gW p = 0 := by rw [gW_eq]; unfold gravity; rw [hg]; apply vec3_ext <;> simp
  have n1 : ns2sec 1000000000 = 1 := by unfold ns2sec; norm_num
  have n2 : ns2sec 2000000000 = 2 := by unfold ns2sec; norm_num
  have e1 : preint p ⟨0, 0, 0⟩ (two (2 * 10 ^ 9) 0 ![2, 0, 0]) (10 ^ 9) (2 * 10 ^ 9) = .ok
      ⟨integrate false p ⟨0, 0, 0⟩ {} ⟨0, 0, 0, ![2, 0, 0], 1⟩, 2000000000, true, 1⟩ := by
    simp [preint, two, Imu.size, loop, samples, at?, nextTime, body, atEnd, atStart, bind_val, startInterval, n1, n2]
    rw [if_neg (by norm_num)]; rfl
  have e2 : redo p ⟨0, 0, 0⟩ (two (2 * 10 ^ 9) 0 ![2, 0, 0]) (10 ^ 9) (2 * 10 ^ 9) = .ok
      ⟨integrate true p ⟨0, 0, 0⟩ {} ⟨0, 0, (1 - 2⁻¹ : ℝ) • ![2, 0, 0], ![2, 0, 0], 1⟩, 2000000000, true, 1⟩ := by
    simp [redo, two, Imu.size, loop, samples, at?, nextTime, body, atEnd, atStart, bind_val, startInterval, n1, n2]
    rw [if_neg (by norm_num)]; rfl
  refine ⟨_, _, ⟨⟨rfl, rfl⟩, ⟨0, rfl, by norm_num⟩, ⟨2 * 10 ^ 9, rfl, le_refl _⟩⟩, by unfold propagation; rw [e1]; rfl, ?_, e2, ?_⟩
  · show (moved p 1 ⟨0, 0, 0⟩ _).2.v = _
    unfold moved
    simp only
    rw [hone, one_mulVec, hgW, smul_zero, sub_zero, zero_add, integrate_still false p _ rfl rfl]
    apply vec3_ext <;> simp
  · rw [integrate_still true p _ rfl rfl]
    apply vec3_ext <;> simp
    norm_num

/-- If the interval lies between two samples the measurement at its end is wrong, too: with the specific force rising
from 0 to 4 in four seconds, the velocity gained between seconds 1 and 3 is 8/3 instead of 4. -/
theorem C44_inside_refuted (p : Params) : ∃ s : Loop,
    Covers (two (4 * 10 ^ 9) 0 ![4, 0, 0]) (10 ^ 9) (3 * 10 ^ 9) ∧
    redo p ⟨0, 0, 0⟩ (two (4 * 10 ^ 9) 0 ![4, 0, 0]) (10 ^ 9) (3 * 10 ^ 9) = .ok s ∧ s.I.acc_int = ![8 / 3, 0, 0] := by
  have n2 : ns2sec 2000000000 = 2 := by unfold ns2sec; norm_num
  have n3 : ns2sec 3000000000 = 3 := by unfold ns2sec; norm_num
  have n4 : ns2sec 4000000000 = 4 := by unfold ns2sec; norm_num
  have e2 : redo p ⟨0, 0, 0⟩ (two (4 * 10 ^ 9) 0 ![4, 0, 0]) (10 ^ 9) (3 * 10 ^ 9) = .ok
      ⟨integrate true p ⟨0, 0, 0⟩ {} ⟨0, 0, (1 - 2 / 3 : ℝ) • ((2 / 4 : ℝ) • ![4, 0, 0]), (2 / 4 : ℝ) • ![4, 0, 0], 2⟩, 3000000000, true, 1⟩ := by
    simp [redo, two, Imu.size, loop, samples, at?, nextTime, body, atEnd, atStart, bind_val, startInterval, lerp, n2, n3, n4]
    rw [if_neg (by norm_num)]; rfl
  refine ⟨_, ⟨⟨rfl, rfl⟩, ⟨0, rfl, by norm_num⟩, ⟨4 * 10 ^ 9, rfl, by norm_num⟩⟩, e2, ?_⟩
  rw [integrate_still true p _ rfl rfl]
  apply vec3_ext <;> simp
  norm_num

/-- An interval of no length makes the residual read past the last sample. -/
theorem C44_empty_interval_refuted (llt : Mat15 → Mat15) (p : Params) (d : Imu (Vec3 ℝ)) (t0 t1 delay : ℤ)
    (x0 x1 : Fin 7 → ℝ) (sb0 sb1 : SB) (hf : Full d) (hd : d.ts ≠ []) (ht : t1 ≤ t0) :
    evaluate llt p d t0 t1 delay x0 x1 sb0 sb1 = .error .oob := by
  have key : ∀ (n k : Nat) (s : Loop), k + (n + 1) = d.ts.length → t1 + delay ≤ s.time →
      loop true p sb0 d (t1 + delay) (n + 1) k s = .error .oob := by
    intro n
    induction n with
    | zero =>
      intro k s hk _
      rw [loop]
      have hs : samples d k = .error .oob := by
        unfold samples
        rw [at_lt (l := d.gyr) (k := k) (by rw [hf.2]; omega), at_lt (l := d.acc) (k := k) (by rw [hf.1]; omega),
          at_ge (l := d.gyr) (k := k + 1) (by rw [hf.2]; omega)]
        rfl
      rw [hs]; rfl
    | succ n ih =>
      intro k s hk hs
      rw [loop]
      obtain ⟨m, hm⟩ := samples_ok hf (k := k) (by omega)
      obtain ⟨u1, h1⟩ := nextTime_or (tend := t1 + delay) (k := k) (show k < d.ts.length by omega)
      rw [hm, at_lt (l := d.ts) (k := k) (by omega), h1]
      show (body true p sb0 (t1 + delay) s m.1 m.2.1 m.2.2.1 m.2.2.2 d.ts[k] u1 >>= fun b =>
        if b.2 then Except.ok b.1 else loop true p sb0 d (t1 + delay) (n + 1) (k + 1) b.1) = .error .oob
      have hb : body true p sb0 (t1 + delay) s m.1 m.2.1 m.2.2.1 m.2.2.2 d.ts[k] u1 = .ok (s, false) := by
        unfold body
        simp only
        by_cases h1 : u1 - s.time < 0
        · rw [if_pos h1]
        rw [if_neg h1, if_pos]
        by_contra hc
        have := ns2sec_pos.mp (not_le.mp hc)
        split at this <;> omega
      rw [hb]
      exact ih (k + 1) s (by omega) hs
  have hpos : 0 < d.ts.length := List.length_pos_of_ne_nil hd
  have h := key (d.ts.length - 1) 0 { time := t0 + delay } (by omega) (by show t1 + delay ≤ t0 + delay; omega)
  rw [show d.ts.length - 1 + 1 = d.ts.length by omega] at h
  unfold evaluate
  simp only
  have : redo p sb0 d (t0 + delay) (t1 + delay) = .error .oob := h
  rw [this]; rfl

/-- So does an interval that ends after the last sample (for instance because of the time delay). -/
theorem C44_late_interval_refuted (llt : Mat15 → Mat15) (p : Params) (d : Imu (Vec3 ℝ)) (t0 t1 delay b : ℤ)
    (x0 x1 : Fin 7 → ℝ) (sb0 sb1 : SB) (hf : Full d) (hs : d.ts.Pairwise (· < ·)) (hl : d.ts.getLast? = some b)
    (hb : b < t1 + delay) :
    evaluate llt p d t0 t1 delay x0 x1 sb0 sb1 = .error .oob := by
  have hle : ∀ k (hk : k < d.ts.length), d.ts[k] ≤ b := by
    intro k hk
    have hne : d.ts ≠ [] := by rintro h; rw [h] at hl; cases hl
    rw [List.getLast?_eq_getElem?] at hl
    obtain ⟨q, hq⟩ := List.getElem?_eq_some_iff.mp hl
    rw [← hq]
    rcases Nat.lt_or_ge k (d.ts.length - 1) with h | h
    · exact (List.pairwise_iff_getElem.mp hs k (d.ts.length - 1) hk q h).le
    · have : k = d.ts.length - 1 := by omega
      subst this; exact le_refl _
  have key : ∀ (n k : Nat) (s : Loop), k + (n + 1) = d.ts.length →
      loop true p sb0 d (t1 + delay) (n + 1) k s = .error .oob := by
    intro n
    induction n with
    | zero =>
      intro k s hk
      rw [loop]
      have hs : samples d k = .error .oob := by
        unfold samples
        rw [at_lt (l := d.gyr) (k := k) (by rw [hf.2]; omega), at_lt (l := d.acc) (k := k) (by rw [hf.1]; omega),
          at_ge (l := d.gyr) (k := k + 1) (by rw [hf.2]; omega)]
        rfl
      rw [hs]; rfl
    | succ n ih =>
      intro k s hk
      rw [loop]
      obtain ⟨m, hm⟩ := samples_ok hf (k := k) (by omega)
      have h1 : nextTime d (t1 + delay) k = .ok d.ts[k + 1] := by
        unfold nextTime
        rw [if_neg (by show k + 1 ≠ d.ts.length; omega), at_lt (by omega)]
      rw [hm, at_lt (l := d.ts) (k := k) (by omega), h1]
      show (body true p sb0 (t1 + delay) s m.1 m.2.1 m.2.2.1 m.2.2.2 d.ts[k] d.ts[k + 1] >>= fun b =>
        if b.2 then Except.ok b.1 else loop true p sb0 d (t1 + delay) (n + 1) (k + 1) b.1) = .error .oob
      have hlt : d.ts[k + 1] < t1 + delay := lt_of_le_of_lt (hle _ _) hb
      have hinc : d.ts[k] < d.ts[k + 1] := List.pairwise_iff_getElem.mp hs k (k + 1) (by omega) (by omega) (by omega)
      have hb : ∃ s', body true p sb0 (t1 + delay) s m.1 m.2.1 m.2.2.1 m.2.2.2 d.ts[k] d.ts[k + 1] = .ok (s', false) := by
        generalize d.ts[k + 1] = u1 at *
        generalize d.ts[k] = u0 at *
        unfold body
        simp only
        by_cases h1 : u1 - s.time < 0
        · rw [if_pos h1]; exact ⟨_, rfl⟩
        rw [if_neg h1, if_neg (show ¬ (t1 + delay < u1) by omega)]
        by_cases h2 : ns2sec (u1 - s.time) ≤ 0
        · rw [if_pos h2]; exact ⟨_, rfl⟩
        rw [if_neg h2, if_neg (by omega), if_neg (by simp [startInterval]; intro _; omega)]
        rw [show decide (u1 = t1 + delay) = false by simp; omega]
        exact ⟨_, rfl⟩
      obtain ⟨s', hb⟩ := hb
      rw [hb]
      exact ih (k + 1) s' (by omega)
  have hpos : 0 < d.ts.length := by
    apply List.length_pos_of_ne_nil
    rintro h; rw [h] at hl; cases hl
  have h := key (d.ts.length - 1) 0 { time := t0 + delay } (by omega)
  rw [show d.ts.length - 1 + 1 = d.ts.length by omega] at h
  unfold evaluate
  simp only
  have : redo p sb0 d (t0 + delay) (t1 + delay) = .error .oob := h
  rw [this]; rfl

/-- Data for the theorems about Jacobians: half a second turning at one radian per second, three samples; a pose of less than
120 degrees. -/
example (a : Vec3 ℝ) : Covers (constData [0, 3 * 10 ^ 8, 10 ^ 9] ![0, 0, 1] a) 0 (6 * 10 ^ 8) ∧
    (constData [0, 3 * 10 ^ 8, 10 ^ 9] ![0, 0, 1] a).ts.Pairwise (· < ·) ∧
    (constData [0, 3 * 10 ^ 8, 10 ^ 9] ![0, 0, 1] a).ts.head? = some 0 ∧
    Brisk (constData [0, 3 * 10 ^ 8, 10 ^ 9] ![0, 0, 1] a) 0 0 (6 * 10 ^ 8) ∧
    Noisy ⟨1, 1, 1, 1, 981 / 100⟩ ∧ UnitPose ![1, 2, 3, 0, 0, 3 / 5, 4 / 5] ∧
    0 < (tfRot (tfParams (![1, 2, 3, 0, 0, 3 / 5, 4 / 5] : Fin 7 → ℝ))).trace := by
  refine ⟨constData_covers _ _ (f := 0) (b := 10 ^ 9) rfl rfl (by norm_num) (by norm_num), by simp [constData], rfl, ?_, ?_, ?_, ?_⟩
  · right
    refine ⟨![0, 0, 1], 1, by simp [dot3], ?_, ?_⟩
    · intro x hx
      rw [(constData_const _ ![0, 0, 1] a).1 x hx]
      simp [dot3]
    · intro h hh
      simp [steps, constData, diffs, ns2sec] at hh
      rcases hh with rfl | rfl <;> norm_num
  · unfold Noisy; norm_num
  · unfold UnitPose; simp; norm_num
  · rw [poseRot_eq]
    simp [trace, Fin.sum_univ_three, Quat.toRot]
    norm_num

end Yac.Imu
