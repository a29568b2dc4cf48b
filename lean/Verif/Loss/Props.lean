import Verif.Loss.Model
import Mathlib.Analysis.SpecialFunctions.Log.Deriv

/-! C143: which loss function is used, what it weighs, and which solver uses it. -/

namespace Yac.Loss
open Yac.Cam Yac.Ctor Yac.Calib Yac.Config

theorem okb {ε α β : Type} {x : Except ε α} {f : α → Except ε β} {b : β} :
    (x >>= f) = .ok b ↔ ∃ a, x = .ok a ∧ f a = .ok b := by
  cases x with
  | error e =>
    constructor
    · intro h; cases h
    · rintro ⟨a, h, -⟩; cases h
  | ok a =>
    constructor
    · intro h; exact ⟨a, rfl, h⟩
    · rintro ⟨a', h, h'⟩; cases h; exact h'

/-! ## The Blake-Zisserman loss -/

/-- C143: the weight of a residual falls as it grows; it is the chosen weight `w` exactly when the square of the
residual is the `p` quantile of the chi-squared distribution with the chosen degrees of freedom. -/
theorem C143_weight (chi : Quantile) (df : ℕ) (hdf : df ≠ 0) (p w tiny : ℝ) (hw0 : 0 < w) (hw1 : w < 1) (ht : tiny < w) :
    ∃ eps, blakeEps chi df p w = .ok eps ∧ 0 < eps ∧ (eval tiny (.blake eps) (chi df p)).r1 = w ∧
      (∀ s, s < chi df p → w < (eval tiny (.blake eps) s).r1) ∧ (∀ s, chi df p < s → (eval tiny (.blake eps) s).r1 < w) ∧
      (∀ s, (eval tiny (.blake eps) s).r1 < 1) := by
  refine ⟨(1 - w) / w * Real.exp (-(chi df p)), by rw [blakeEps, if_neg hdf], by
    have : 0 < (1 - w) / w := div_pos (by linarith) hw0
    positivity, ?_⟩
  have hx : ∀ s, (1 - w) / w * Real.exp (-(chi df p)) * Real.exp s = (1 - w) / w * Real.exp (s - chi df p) := by
    intro s
    rw [mul_assoc, ← Real.exp_add]
    congr 2
    ring
  have r1 : ∀ s, (eval tiny (.blake ((1 - w) / w * Real.exp (-(chi df p)))) s).r1 =
      max tiny (1 / ((1 - w) / w * Real.exp (s - chi df p) + 1)) := by
    intro s
    show max tiny (1 / ((1 - w) / w * Real.exp (-(chi df p)) * Real.exp s + 1)) = _
    rw [hx]
  have hc : 0 < (1 - w) / w := div_pos (by linarith) hw0
  have hone : 1 / ((1 - w) / w + 1) = w := by field_simp; ring
  refine ⟨?_, ?_, ?_, ?_⟩
  · rw [r1, sub_self, Real.exp_zero, mul_one, hone]
    exact max_eq_right ht.le
  · intro s hs
    rw [r1]
    refine lt_of_lt_of_le ?_ (le_max_right _ _)
    have he : Real.exp (s - chi df p) < 1 := by rw [Real.exp_lt_one_iff]; linarith
    calc w = 1 / ((1 - w) / w + 1) := hone.symm
      _ < _ := by
        apply one_div_lt_one_div_of_lt (by positivity)
        nlinarith
  · intro s hs
    rw [r1]
    refine max_lt ht ?_
    have he : 1 < Real.exp (s - chi df p) := by rw [Real.one_lt_exp_iff]; linarith
    calc _ < 1 / ((1 - w) / w + 1) := by
          apply one_div_lt_one_div_of_lt (by positivity)
          nlinarith
      _ = w := hone
  · intro s
    rw [r1]
    refine max_lt (by linarith) ?_
    rw [div_lt_one (by positivity)]
    have : 0 < (1 - w) / w * Real.exp (s - chi df p) := by positivity
    linarith

/-- C143 refuted: the documentation says that with `p` = 0.99 the smaller 99 of 100 squared errors are not
down-weighted.  Every one of them is, and those just below the quantile nearly down to the weight `w`. -/
theorem C143_documentation_refuted (chi : Quantile) (df : ℕ) (hdf : df ≠ 0) (p w tiny : ℝ) (hw0 : 0 < w) (hw1 : w < 1) (ht : tiny < w)
    (d : ℝ) (hd : 0 < d) :
    ∃ eps, blakeEps chi df p w = .ok eps ∧ (∀ s, (eval tiny (.blake eps) s).r1 < 1) ∧
      ∃ s, s < chi df p ∧ (eval tiny (.blake eps) s).r1 < w + d := by
  obtain ⟨eps, h1, h2, h3, -, -, h6⟩ := C143_weight chi df hdf p w tiny hw0 hw1 ht
  refine ⟨eps, h1, h6, ?_⟩
  have hcont : ContinuousAt (fun s => (eval tiny (.blake eps) s).r1) (chi df p) := by
    show ContinuousAt (fun s => max tiny (1 / (eps * Real.exp s + 1))) (chi df p)
    refine Continuous.continuousAt ?_
    refine continuous_const.max ?_
    refine Continuous.div continuous_const ((Real.continuous_exp.const_mul eps).add continuous_const) ?_
    intro s
    positivity
  have hlt : (eval tiny (.blake eps) (chi df p)).r1 < w + d := by rw [h3]; linarith
  have ev := hcont.eventually (gt_mem_nhds hlt)
  obtain ⟨δ, hδ, hball⟩ := Metric.eventually_nhds_iff.mp ev
  refine ⟨chi df p - δ / 2, by linarith, hball ?_⟩
  rw [Real.dist_eq]
  rw [show chi df p - δ / 2 - chi df p = -(δ / 2) by ring, abs_neg, abs_of_pos (by linarith)]
  linarith

/-- C143: no loss function makes a residual cost more than it would without. -/
theorem C143_bounded (tiny : ℝ) (s : ℝ) (hs : 0 ≤ s) :
    (∀ eps, 0 < eps → (eval tiny (.blake eps) s).r0 ≤ s) ∧
    (∀ a, a ≠ 0 → (eval tiny (.cauchy a) s).r0 ≤ s) ∧
    (∀ a, 0 < a → (eval tiny (.huber a) s).r0 ≤ s) := by
  refine ⟨?_, ?_, ?_⟩
  · intro eps he
    show -Real.log (eps + Real.exp (-s)) ≤ s
    have : -s ≤ Real.log (eps + Real.exp (-s)) := by
      rw [Real.le_log_iff_exp_le (by positivity)]
      linarith
    linarith
  · intro a ha
    show a * a * Real.log (1 + s * (1 / (a * a))) ≤ s
    have hb : 0 < a * a := mul_self_pos.mpr ha
    have hpos : 0 < 1 + s * (1 / (a * a)) := by positivity
    have := Real.log_le_sub_one_of_pos hpos
    calc a * a * Real.log (1 + s * (1 / (a * a))) ≤ a * a * (1 + s * (1 / (a * a)) - 1) := by
          exact mul_le_mul_of_nonneg_left this hb.le
      _ = s := by field_simp; ring
  · intro a ha
    by_cases h : s > a * a
    · have e : (eval tiny (.huber a) s).r0 = 2 * a * Real.sqrt s - a * a := by
        show (huber tiny a s).r0 = _
        unfold huber
        simp only [if_pos h]
      rw [e]
      nlinarith [Real.sq_sqrt hs, sq_nonneg (Real.sqrt s - a)]
    · have e : (eval tiny (.huber a) s).r0 = s := by
        show (huber tiny a s).r0 = _
        unfold huber
        simp only [if_neg h]
      rw [e]

/-- C143 refuted: with the Blake-Zisserman loss a perfect fit has a negative cost. -/
theorem C143_perfect_refuted (tiny eps : ℝ) (he : 0 < eps) (n : ℕ) :
    ceresCost tiny [⟨some (.blake eps), List.replicate n 0⟩] < 0 := by
  have : sqNorm (List.replicate n 0) = 0 := by simp [sqNorm]
  simp only [ceresCost, List.map_cons, List.map_nil, List.sum_cons, List.sum_nil, this, add_zero]
  show 1 / 2 * -Real.log (eps + Real.exp (-0)) < 0
  rw [neg_zero, Real.exp_zero]
  have : 0 < Real.log (eps + 1) := Real.log_pos (by linarith)
  linarith

/-! ## Who uses it -/

/-- C143: without loss functions the two solvers minimise the same cost. -/
theorem C143_same_cost (tiny : ℝ) (bs : List Block) (h : ∀ b ∈ bs, b.loss = none) : ceresCost tiny bs = yacCost bs := by
  unfold ceresCost yacCost
  refine congrArg List.sum (List.map_congr_left ?_)
  intro b hb
  simp only [h b hb]

/-- C143 refuted: the solver of this library does not use the loss functions: its cost is that of the same residuals
without them, whereas Ceres' is not. -/
theorem C143_ignored_refuted (tiny : ℝ) :
    (∀ bs : List Block, yacCost bs = yacCost (bs.map fun b => { b with loss := none })) ∧
    ceresCost tiny [⟨some (.cauchy 1), [2]⟩] ≠ ceresCost tiny [⟨none, [2]⟩] := by
  constructor
  · intro bs
    simp [yacCost, List.map_map, Function.comp_def]
  · have e1 : ceresCost tiny [⟨some (.cauchy 1), [2]⟩] = 1 / 2 * Real.log 5 := by
      simp only [ceresCost, List.map_cons, List.map_nil, List.sum_cons, List.sum_nil, add_zero]
      show 1 / 2 * (1 * 1 * Real.log (1 + sqNorm [2] * (1 / (1 * 1)))) = _
      have : sqNorm [2] = 4 := by norm_num [sqNorm]
      rw [this]; norm_num
    have e2 : ceresCost tiny [⟨none, [2]⟩] = 2 := by
      norm_num [ceresCost, sqNorm]
    rw [e1, e2]
    have : Real.log 5 ≤ 5 / 2 - 1 + Real.log 2 := by
      have h1 := Real.log_le_sub_one_of_pos (show (0 : ℝ) < 5 / 2 by norm_num)
      have h2 : Real.log 5 = Real.log (5 / 2) + Real.log 2 := by rw [← Real.log_mul (by norm_num) (by norm_num)]; norm_num
      linarith
    have h2 : Real.log 2 < 1 := by
      have := Real.log_lt_sub_one_of_pos (show (0 : ℝ) < 2 by norm_num) (by norm_num); linarith
    intro h
    linarith

/-! ## Which is chosen -/

variable {K V : Type}

/-- The loss function a calibrator uses from its first `solve` on. -/
inductive Chosen (chi : Quantile) (c : Calibrator K V) : Option Built → Prop
  | kept (l : Built) : c.loss = some l → Chosen chi c (some l)
  | off : c.lossOn = false → c.loss = none → Chosen chi c none
  | blake (n : ℤ) (eps : ℝ) : c.lossOn = true → c.loss = none → c.lossType = "BLAKE-ZISSERMAN".toList →
      (0 ≤ c.lossParam ∧ n = ⌊c.lossParam⌋ ∨ c.lossParam < 0 ∧ n = ⌈c.lossParam⌉) → n ≠ 0 →
      blakeEps chi (asSize n) (999 / 1000) (1 / 10) = .ok eps → Chosen chi c (some (.blake eps))
  | cauchy : c.lossOn = true → c.loss = none → c.lossType = "CAUCHY".toList → Chosen chi c (some (.cauchy c.lossParam))

theorem setup_ok {chi : Quantile} {c c' : Calibrator K V} (h : setupLoss chi c = .ok c') :
    c' = { c with loss := c'.loss } ∧ Chosen chi c c'.loss := by
  unfold setupLoss at h
  split_ifs at h with h1 h2 h3
  · obtain ⟨hon, hn⟩ := h1
    have hn' : c.loss = none := by simpa using hn
    obtain ⟨l, e1, e2⟩ := okb.mp h
    cases e2
    obtain ⟨eps, e3, e4⟩ := okb.mp e1
    cases e4
    refine ⟨rfl, .blake (toInt c.lossParam) eps hon hn' h2 ?_ ?_ e3⟩
    · unfold toInt
      by_cases hx : 0 ≤ c.lossParam
      · exact .inl ⟨hx, if_pos hx⟩
      · exact .inr ⟨not_le.mp hx, if_neg hx⟩
    · intro h0
      rw [h0] at e3
      simp [asSize, blakeEps] at e3
  · obtain ⟨hon, hn⟩ := h1
    obtain ⟨l, e1, e2⟩ := okb.mp h
    cases e2
    cases e1
    exact ⟨rfl, .cauchy hon (by simpa using hn) h3⟩
  · cases h
    refine ⟨rfl, ?_⟩
    cases hl : c.loss with
    | some l => exact .kept l hl
    | none =>
      refine .off ?_ hl
      cases ho : c.lossOn with
      | false => rfl
      | true => exact absurd ⟨ho, by rw [hl]; rfl⟩ h1

/-- What a `solve` that succeeds did: `L` is what the loops run with, for a loss function and an algorithm. -/
structure Solved [Field K] [LinearOrder K] (chi : Quantile) (I : Setup.InitEnv K V) (L : Option Built → Str → LoopEnv K V) (o : Opts)
    (order : List Int → List Int) (fuel : Nat) (skip : Bool) (c c' : Calibrator K V) : Prop where
  settings : c'.lossOn = c.lossOn ∧ c'.lossType = c.lossType ∧ c'.lossParam = c.lossParam ∧ c'.nbv = c.nbv ∧ c'.solver = c.solver
  loss : Chosen chi c c'.loss
  algorithm : c'.algorithm = if c.nbv = true ∧ c.solver = "YAC-SOLVER".toList then "GAUSS-NEWTON".toList else c.algorithm
  started : ∃ cal, (skip = true ∧ cal = c.sess.cal ∨ skip = false ∧
      ∃ mid, Setup.initIntrinsics I c.sess.cal = .ok mid ∧ Setup.initExtrinsics I fuel mid = .ok cal) ∧
    (c.nbv = true ∧ solveNbv (L c'.loss c'.algorithm) o order { c.sess with cal := cal } = .ok c'.sess ∨
     c.nbv = false ∧ ∃ cal', solveBatch (L c'.loss c'.algorithm) cal = .ok cal' ∧ c'.sess = { c.sess with cal := cal' })

/-- C143: `solve` uses the loss function it was told to use (or used before), initialises unless told not to, and
then runs the next best view loop or the batch solution as the settings say. -/
theorem C143_solve [Field K] [LinearOrder K] (chi : Quantile) (I : Setup.InitEnv K V) (L : Option Built → Str → LoopEnv K V) (o : Opts)
    (order : List Int → List Int) (fuel : Nat) (skip : Bool) (c c' : Calibrator K V) (h : solve chi I L o order fuel skip c = .ok c') :
    Solved chi I L o order fuel skip c c' := by
  unfold solve at h
  obtain ⟨c1, h1, h⟩ := okb.mp h
  obtain ⟨e1, hl⟩ := setup_ok h1
  obtain ⟨cal, h2, h⟩ := okb.mp h
  have started : skip = true ∧ cal = c.sess.cal ∨ skip = false ∧
      ∃ mid, Setup.initIntrinsics I c.sess.cal = .ok mid ∧ Setup.initExtrinsics I fuel mid = .ok cal := by
    rw [e1] at h2
    unfold Setup.initialise at h2
    cases skip with
    | true => exact .inl ⟨rfl, by cases h2; rfl⟩
    | false =>
      simp only [Bool.false_eq_true, if_false] at h2
      obtain ⟨mid, a, b⟩ := okb.mp h2
      exact .inr ⟨rfl, mid, a, b⟩
  generalize hlo : c1.loss = lo at e1 hl
  subst e1
  simp only at h
  cases hn : c.nbv with
  | true =>
    simp only [hn, if_true] at h
    obtain ⟨s, a, b⟩ := okb.mp h
    cases b
    by_cases hs : c.solver = "YAC-SOLVER".toList
    · simp only [setAlgorithm, if_pos hs] at a ⊢
      exact ⟨⟨rfl, rfl, rfl, hn.symm, rfl⟩, hl, by rw [if_pos ⟨hn, hs⟩], cal, started, .inl ⟨hn, a⟩⟩
    · simp only [setAlgorithm, if_neg hs] at a ⊢
      exact ⟨⟨rfl, rfl, rfl, hn.symm, rfl⟩, hl, by rw [if_neg (fun h => hs h.2)], cal, started, .inl ⟨hn, a⟩⟩
  | false =>
    simp only [hn, Bool.false_eq_true, if_false] at h
    obtain ⟨cal', a, b⟩ := okb.mp h
    cases b
    exact ⟨⟨rfl, rfl, rfl, hn.symm, rfl⟩, hl, by rw [if_neg (by rw [hn]; simp)], cal, started, .inr ⟨hn, cal', a, rfl⟩⟩

/-- C143: a loss function that is not supported ends the program before anything else. -/
theorem C143_unsupported [Field K] [LinearOrder K] (chi : Quantile) (I : Setup.InitEnv K V) (L : Option Built → Str → LoopEnv K V) (o : Opts)
    (order : List Int → List Int) (fuel : Nat) (skip : Bool) (c : Calibrator K V) (hon : c.lossOn = true) (hn : c.loss = none)
    (h1 : c.lossType ≠ "BLAKE-ZISSERMAN".toList) (h2 : c.lossType ≠ "CAUCHY".toList) :
    solve chi I L o order fuel skip c = .error .fatal := by
  have : setupLoss chi c = .error .fatal := by
    unfold setupLoss
    rw [if_pos ⟨hon, by rw [hn]; rfl⟩, if_neg h1, if_neg h2]
  unfold solve
  rw [this]; rfl

/-- C143 refuted: the parameter of the Blake-Zisserman loss is cut to a whole number; below one in size, the call throws. -/
theorem C143_zero_refuted [Field K] [LinearOrder K] (chi : Quantile) (I : Setup.InitEnv K V) (L : Option Built → Str → LoopEnv K V) (o : Opts)
    (order : List Int → List Int) (fuel : Nat) (skip : Bool) (c : Calibrator K V) (hon : c.lossOn = true) (hn : c.loss = none)
    (h1 : c.lossType = "BLAKE-ZISSERMAN".toList) (hx : |c.lossParam| < 1) :
    solve chi I L o order fuel skip c = .error .exn := by
  have hz : toInt c.lossParam = 0 := by
    obtain ⟨a, b⟩ := abs_lt.mp hx
    unfold toInt
    by_cases h : 0 ≤ c.lossParam
    · rw [if_pos h, Int.floor_eq_zero_iff]; exact ⟨h, b⟩
    · rw [if_neg h, Int.ceil_eq_zero_iff]; exact ⟨a, (not_le.mp h).le⟩
  have : setupLoss chi c = .error .exn := by
    unfold setupLoss
    rw [if_pos ⟨hon, by rw [hn]; rfl⟩, if_pos h1, hz]
    simp [build, asSize, blakeEps]
    rfl
  unfold solve
  rw [this]; rfl

/-- C143 refuted: once a loss function was used, changing the settings (or switching it off) has no effect on the next
`solve`. -/
theorem C143_sticky_refuted [Field K] [LinearOrder K] (chi : Quantile) (I : Setup.InitEnv K V) (L : Option Built → Str → LoopEnv K V) (o : Opts)
    (order : List Int → List Int) (fuel : Nat) (skip skip' : Bool) (c c1 c2 : Calibrator K V) (l : Built)
    (_h1 : solve chi I L o order fuel skip c = .ok c1) (hl : c1.loss = some l) (on : Bool) (ty : Str) (x : ℝ)
    (h2 : solve chi I L o order fuel skip' { c1 with lossOn := on, lossType := ty, lossParam := x } = .ok c2) :
    c2.loss = some l := by
  have := (C143_solve chi I L o order fuel skip' _ c2 h2).loss
  generalize hlo : c2.loss = lo at this
  cases this with
  | kept l' e => rw [hl] at e; exact e.symm
  | off _ e => rw [hl] at e; cases e
  | blake _ _ _ e => rw [hl] at e; cases e
  | cauchy _ e => rw [hl] at e; cases e

/-- C143 refuted: after a next best view run the solver stays with the algorithm chosen for it, also for batch solutions. -/
theorem C143_algorithm_refuted [Field K] [LinearOrder K] (chi : Quantile) (I : Setup.InitEnv K V) (L : Option Built → Str → LoopEnv K V) (o : Opts)
    (order : List Int → List Int) (fuel : Nat) (skip skip' : Bool) (c c1 c2 : Calibrator K V) (hs : c.solver = "YAC-SOLVER".toList)
    (hn : c.nbv = true) (h1 : solve chi I L o order fuel skip c = .ok c1)
    (h2 : solve chi I L o order fuel skip' { c1 with nbv := false } = .ok c2) :
    c2.algorithm = "GAUSS-NEWTON".toList := by
  have a1 := (C143_solve chi I L o order fuel skip _ c1 h1).algorithm
  have a2 := (C143_solve chi I L o order fuel skip' _ c2 h2).algorithm
  rw [a2, if_neg (by simp)]
  simp only
  rw [a1, if_pos ⟨hn, hs⟩]

/-! ## Cases -/

/-- C143 witness: a calibrator without data, told to use the Cauchy loss, is solved, also for the second time after the
settings were changed, and the first loss function stays. -/
example [Field K] [LinearOrder K] (chi : Quantile) (I : Setup.InitEnv K V) (L : Option Built → Str → LoopEnv K V) (o : Opts)
    (order : List Int → List Int) (fuel : Nat) (c : Calibrator K V) (h0 : c.sess.cal.timestamps = []) (hon : c.lossOn = true)
    (hn : c.loss = none) (hty : c.lossType = "CAUCHY".toList) (hx : c.lossParam = 3 / 2) (hb : c.nbv = false) :
    ∃ c1 c2, solve chi I L o order fuel true c = .ok c1 ∧ c1.loss = some (.cauchy (3 / 2)) ∧
      solve chi I L o order fuel true { c with loss := some (.cauchy (3 / 2)), lossOn := false, lossType := [], lossParam := 7 } = .ok c2 ∧
      c2.loss = some (.cauchy (3 / 2)) := by
  have hs : ∀ L : LoopEnv K V, solveBatch L c.sess.cal = .ok (solveFinal L c.sess.cal) := by
    intro L
    unfold solveBatch
    rw [h0]
    rfl
  have h1 : setupLoss chi c = .ok { c with loss := some (.cauchy (3 / 2)) } := by
    unfold setupLoss
    rw [if_pos ⟨hon, by rw [hn]; rfl⟩, if_neg (by rw [hty]; decide), if_pos hty, hx]
    rfl
  have hi : Setup.initialise I fuel true c.sess.cal = .ok c.sess.cal := rfl
  refine ⟨{ c with loss := some (.cauchy (3 / 2)), sess := { c.sess with cal := solveFinal (L (some (.cauchy (3 / 2))) c.algorithm) c.sess.cal } },
    { c with loss := some (.cauchy (3 / 2)), lossOn := false, lossType := [], lossParam := 7,
             sess := { c.sess with cal := solveFinal (L (some (.cauchy (3 / 2))) c.algorithm) c.sess.cal } }, ?_, rfl, ?_, rfl⟩
  · unfold solve
    rw [h1]
    refine okb.mpr ⟨_, rfl, okb.mpr ⟨_, hi, ?_⟩⟩
    simp only [hb, Bool.false_eq_true, if_false]
    rw [hs]
    rfl
  · unfold solve
    refine okb.mpr ⟨{ c with loss := some (.cauchy (3 / 2)), lossOn := false, lossType := [], lossParam := 7 },
      by unfold setupLoss; rw [if_neg (by simp)], okb.mpr ⟨c.sess.cal, hi, ?_⟩⟩
    simp only [hb, Bool.false_eq_true, if_false]
    rw [hs]
    rfl

/-- C143 witness: the hypotheses of `C143_weight` with the default arguments. -/
example (chi : Quantile) : ∃ eps, blakeEps chi 2 (999 / 1000) (1 / 10) = .ok eps ∧
    (eval (1 / 10 ^ 300) (.blake eps) (chi 2 (999 / 1000))).r1 = 1 / 10 := by
  obtain ⟨eps, a, -, b, -⟩ := C143_weight chi 2 (by norm_num) (999 / 1000) (1 / 10) (1 / 10 ^ 300) (by norm_num) (by norm_num)
    (one_div_lt_one_div_of_lt (by norm_num) (by
      have : (10 : ℝ) ^ 1 < 10 ^ 300 := pow_lt_pow_right₀ (by norm_num) (by norm_num)
      simpa using this))
  exact ⟨eps, a, b⟩

end Yac.Loss
