import Verif.Gimbal.ProblemModel
import Verif.Gimbal.Props
import Verif.Cam.Props
import Verif.Num.FloatLemmas

namespace Yac.Gimbal
open Yac.Geom Yac.Num Matrix

theorem f08 : f64 (4 / 5) = 7205759403792794 / 9007199254740992 := by decide +kernel

/-- Rounding to double does not go below an integer. -/
theorem f64_floor (m : Nat) (x : ℚ) (h : (m : ℚ) ≤ x) (hx : x < 2 ^ 52) : (m : ℚ) ≤ f64 x := by
  by_cases h0 : x = 0
  · subst h0
    have : (m : ℚ) = 0 := le_antisymm h (Nat.cast_nonneg m)
    rw [this]; decide +kernel
  have hx0 : 0 ≤ x := le_trans (Nat.cast_nonneg m) h
  have he := expo_le 53 h0
  rw [abs_of_nonneg hx0] at he
  have hneg : expo 53 x ≤ 0 := by
    by_contra hc
    have h1 : (2 : ℚ) ^ (1 : ℤ) ≤ 2 ^ expo 53 x := zpow_le_zpow_right₀ (by norm_num) (by omega)
    norm_num at h1 he hx
    linarith
  obtain ⟨k, hk⟩ : ∃ k : Nat, expo 53 x = -(k : ℤ) := ⟨(-expo 53 x).toNat, by omega⟩
  have hp : pow2 (expo 53 x) = 1 / 2 ^ k := by rw [pow2_eq, hk, zpow_neg]; simp
  unfold f64 rne
  simp only [hp]
  have hc := rneInt_close (x / (1 / 2 ^ k))
  have hge : ((m * 2 ^ k : ℕ) : ℤ) ≤ rneInt (x / (1 / 2 ^ k)) := by
    by_contra hcon
    have hlt : rneInt (x / (1 / 2 ^ k)) ≤ ((m * 2 ^ k : ℕ) : ℤ) - 1 := by omega
    have hlt' : (rneInt (x / (1 / 2 ^ k)) : ℚ) ≤ (m : ℚ) * 2 ^ k - 1 := by exact_mod_cast hlt
    have h2 := (abs_le.mp hc).2
    have h3 : x / (1 / 2 ^ k) = x * 2 ^ k := by field_simp
    have h4 : (m : ℚ) * 2 ^ k ≤ x * 2 ^ k := mul_le_mul_of_nonneg_right h (by positivity)
    rw [h3] at h2 hlt'
    linarith
  have hge' : (m : ℚ) * 2 ^ k ≤ rneInt (x / (1 / 2 ^ k)) := by exact_mod_cast hge
  have : (m : ℚ) = (m : ℚ) * 2 ^ k * (1 / 2 ^ k) := by field_simp
  rw [this]
  first | exact mul_le_mul_of_nonneg_right hge' (by positivity) | (split_ifs <;> exact mul_le_mul_of_nonneg_right hge' (by positivity))

/-- In double precision too, `N` is four fifths of the number of timestamps, rounded down (up to `2^31` of them). -/
theorem trainCount_eq {n : Nat} (hn : n < 2 ^ 31) : trainCount n = 4 * n / 5 := by
  unfold trainCount
  rw [f08]
  set x : ℚ := (n : ℚ) * (7205759403792794 / 9007199254740992) with hx
  have hn' : (n : ℚ) < 2 ^ 31 := by exact_mod_cast hn
  have hn0 : (0 : ℚ) ≤ n := Nat.cast_nonneg n
  have hx0 : 0 ≤ x := by rw [hx]; positivity
  have herr := f64_err x
  rw [abs_of_nonneg hx0] at herr
  set y := f64 x with hy
  have hlo : x - x / 2 ^ 53 ≤ y := by
    have := (abs_le.mp (le_refl |y - x|)).1
    have h2 : |y - x| ≤ x / 2 ^ 53 := by rw [le_div_iff₀ (by positivity)]; exact herr
    linarith
  have hhi : y ≤ x + x / 2 ^ 53 := by
    have h2 : |y - x| ≤ x / 2 ^ 53 := by rw [le_div_iff₀ (by positivity)]; exact herr
    have := le_abs_self (y - x)
    linarith
  obtain ⟨m, r, hr, hm⟩ : ∃ m r, r < 5 ∧ 4 * n = 5 * m + r := ⟨4 * n / 5, 4 * n % 5, Nat.mod_lt _ (by norm_num), by omega⟩
  have hm' : 4 * n / 5 = m := by omega
  have hq : (4 : ℚ) * n = 5 * m + r := by exact_mod_cast hm
  have hr5 : (r : ℚ) ≤ 4 := by exact_mod_cast (show r ≤ 4 by omega)
  have hr0 : (0 : ℚ) ≤ r := Nat.cast_nonneg r
  have hx' : x = (5 * m + r) / 4 * (7205759403792794 / 9007199254740992) := by
    rw [hx, show (n : ℚ) = (5 * m + r) / 4 by linarith]
  have hmb : (m : ℚ) < 2 ^ 31 := by linarith
  have h1 : y < m + 1 := by
    have : x + x / 2 ^ 53 < m + 1 := by
      rw [hx']
      norm_num at hmb ⊢
      linarith
    linarith
  have h2 : (m : ℚ) ≤ y := f64_floor m x (by rw [hx']; linarith) (by rw [hx']; norm_num at hmb ⊢; linarith)
  have h3 : y.floor = m := by
    apply le_antisymm
    · have h4 : (y.floor : ℚ) < (m : ℚ) + 1 := lt_of_le_of_lt (Rat.floor_le y) h1
      have h5 : y.floor < (m : ℤ) + 1 := by exact_mod_cast h4
      omega
    · rw [Rat.le_floor_iff]; exact_mod_cast h2
  have hy0 : 0 ≤ y := le_trans (Nat.cast_nonneg m) h2
  unfold truncQ
  rw [if_pos hy0, h3, hm']
  simp

/-! ### C125: training and test data -/

/-- For every shuffle of at least one timestamp: four fifths (rounded down) are used for training, and all others
but one for the test. -/
theorem C125_split (ts sh : List ℤ) (hp : sh.Perm ts) (h0 : ts ≠ []) (hn : ts.length < 2 ^ 31) :
    ∃ train dropped test, splitData sh = .ok (train, test) ∧ train.length = 4 * ts.length / 5 ∧
      (train ++ dropped :: test).Perm ts ∧ (ts.Nodup → ∀ t ∈ train, t ∉ test) := by
  have hl : sh.length = ts.length := hp.length_eq
  have hpos : 0 < ts.length := List.length_pos_iff.mpr h0
  have hN : trainCount sh.length = 4 * ts.length / 5 := by rw [hl]; exact trainCount_eq hn
  have hlt : 4 * ts.length / 5 < sh.length := by omega
  have e : sh = sh.take (4 * ts.length / 5) ++ sh[4 * ts.length / 5] :: sh.drop (4 * ts.length / 5 + 1) := by
    rw [← List.drop_eq_getElem_cons, List.take_append_drop]
  refine ⟨_, sh[4 * ts.length / 5], _, ?_, ?_, by rw [← e]; exact hp, fun hd t h1 h2 => ?_⟩
  · unfold splitData
    simp only [hN]
    rw [if_neg (by omega)]
  · rw [List.length_take]; omega
  · have hd' : sh.Nodup := (hp.nodup_iff).mpr hd
    rw [e] at hd'
    exact (List.nodup_append.mp hd').2.2 t h1 t (List.mem_cons_of_mem _ h2) rfl

/-- Without timestamps the iterators of the test data run past the end. -/
theorem C125_empty_refuted : splitData [] = .error .oob := by
  have : trainCount 0 = 0 := trainCount_eq (by norm_num)
  unfold splitData
  simp only [List.length_nil, this]
  rfl

/-- A timestamp that is listed twice can be used for both training and test. -/
theorem C125_leak_refuted : ∃ ts sh train test, sh.Perm ts ∧ splitData sh = .ok (train, test) ∧ 1 ∈ train ∧ 1 ∈ test := by
  have h : trainCount 5 = 4 := trainCount_eq (by norm_num)
  have h10 : trainCount 10 = 8 := trainCount_eq (by norm_num)
  refine ⟨[1, 1, 2, 3, 4, 5, 6, 7, 8, 9], [1, 2, 3, 4, 5, 6, 7, 8, 9, 1], [1, 2, 3, 4, 5, 6, 7, 8], [1], by decide, ?_, by decide,
    by decide⟩
  unfold splitData
  simp only [List.length_cons, List.length_nil, Nat.zero_add, Nat.reduceAdd, h10]
  rfl

/-! ### C125: the problem -/

theorem cost_append (s : State) (a b : List Res) :
    cost s (a ++ b) = (cost s a).bind fun x => (cost s b).map fun y => x + y := by
  induction a with
  | nil => cases h : cost s b <;> simp [cost, h]
  | cons r rs ih =>
    rw [List.cons_append, cost, cost, ih]
    cases r.sq s with
    | none => rfl
    | some x =>
      cases cost s rs with
      | none => rfl
      | some y =>
        cases cost s b with
        | none => rfl
        | some z => simp [add_assoc]

/-- The squared distance between a corner (undistorted) and the projection of its point on the target; `cam` is the
pose of the camera on the end effector. -/
def PixelSq (k : Cam.Params) (s : State) (ts : ℤ) (cam : Fin 7 → ℝ) (c : (ℝ × ℝ) × Vec3 ℝ) (v : ℝ) : Prop :=
  ∃ z r, undistortKp k c.1 = some z ∧ reprojError ![k 0, k 1, k 2, k 3] z c.2 (s.params ts cam) = some r ∧ v = r.1 ^ 2 + r.2 ^ 2

/-- The squared deviation of the joint angles of a timestamp from their measurement, over the variance 0.01. -/
noncomputable def jointSq (meas : ℤ → Fin 3 → ℝ) (s : State) (ts : ℤ) : ℝ :=
  ((meas ts 0 - s.joints ts 0) ^ 2 + (meas ts 1 - s.joints ts 1) ^ 2 + (meas ts 2 - s.joints ts 2) ^ 2) / (1 / 100)

theorem jointError_sq (m e : ℝ) : jointError m (1 / 100) e ^ 2 = (m - e) ^ 2 / (1 / 100) := by
  unfold jointError
  simp only
  rw [mul_pow, Real.sq_sqrt (by norm_num)]; ring

theorem cost_grid (k : Cam.Params) (meas : ℤ → Fin 3 → ℝ) (s : State) (i : Nat) (cam : Fin 7 → ℝ)
    (hi : (i = 0 ∧ cam = s.cam0) ∨ (i = 1 ∧ cam = s.cam1)) (g : Grid) (f : (ℝ × ℝ) × Vec3 ℝ → ℝ)
    (hf : ∀ c ∈ g.corners, PixelSq k s g.ts cam c (f c)) :
    cost s (addGrid k meas i g) = some ((g.corners.map f).sum + g.corners.length * jointSq meas s g.ts) := by
  unfold addGrid
  simp only
  obtain ⟨ts, cs⟩ := g
  simp only at hf ⊢
  induction cs with
  | nil => simp [cost]
  | cons c cs ih =>
    obtain ⟨z, r, h1, h2, h3⟩ := hf c (by simp)
    rw [List.flatMap_cons, cost_append, ih (fun x hx => hf x (by simp [hx]))]
    have hr : (Res.reproj ![k 0, k 1, k 2, k 3] (undistortKp k c.1) c.2 ts (camBlock i)).sq s = some (f c) := by
      have hcam : camBlock i = some .cam0 ∧ cam = s.cam0 ∨ camBlock i = some .cam1 ∧ cam = s.cam1 := by
        rcases hi with ⟨rfl, h⟩ | ⟨rfl, h⟩
        · exact Or.inl ⟨rfl, h⟩
        · exact Or.inr ⟨rfl, h⟩
      rw [h1]
      rcases hcam with ⟨hb, hc⟩ | ⟨hb, hc⟩ <;>
      · rw [hb, h3]
        rw [hc] at h2
        simp [Res.sq, h2]
    have hj : ∀ q : Fin 3, (Res.joint (meas ts q) (1 / 100) q ts).sq s = some ((meas ts q - s.joints ts q) ^ 2 / (1 / 100)) := by
      intro q
      simp only [Res.sq, jointError_sq]
    simp only [cost, hr, hj, Option.bind_eq_bind, Option.bind_some, Option.map_some, List.map_cons, List.sum_cons,
      List.length_cons, Option.some.injEq]
    unfold jointSq
    push_cast
    ring

/-- The cost: the squared pixel errors of all corners of both cameras at the training timestamps, plus the squared
deviations of the joint angles - these, however, once for every corner. -/
theorem C125_cost (k0 k1 : Cam.Params) (meas : ℤ → Fin 3 → ℝ) (grids0 grids1 : ℤ → Grid) (train : List ℤ) (s : State)
    (f0 f1 : ℤ → (ℝ × ℝ) × Vec3 ℝ → ℝ) (ht0 : ∀ ts ∈ train, (grids0 ts).corners ≠ [] → (grids0 ts).ts = ts)
    (ht1 : ∀ ts ∈ train, (grids1 ts).corners ≠ [] → (grids1 ts).ts = ts)
    (h0 : ∀ ts ∈ train, ∀ c ∈ (grids0 ts).corners, PixelSq k0 s ts s.cam0 c (f0 ts c))
    (h1 : ∀ ts ∈ train, ∀ c ∈ (grids1 ts).corners, PixelSq k1 s ts s.cam1 c (f1 ts c)) :
    cost s (problem k0 k1 meas grids0 grids1 train) = some ((train.map fun ts =>
      ((grids0 ts).corners.map (f0 ts)).sum + ((grids1 ts).corners.map (f1 ts)).sum +
        ((grids0 ts).corners.length + (grids1 ts).corners.length) * jointSq meas s ts).sum) := by
  unfold problem
  induction train with
  | nil => simp [cost]
  | cons t train ih =>
    rw [List.flatMap_cons, cost_append, cost_append,
      ih (fun ts h => ht0 ts (by simp [h])) (fun ts h => ht1 ts (by simp [h])) (fun ts h => h0 ts (by simp [h]))
        (fun ts h => h1 ts (by simp [h]))]
    have e0 : cost s (addGrid k0 meas 0 (grids0 t)) =
        some (((grids0 t).corners.map (f0 t)).sum + (grids0 t).corners.length * jointSq meas s t) := by
      by_cases hc : (grids0 t).corners = []
      · simp [addGrid, hc, cost]
      · have ht := ht0 t (by simp) hc
        rw [cost_grid k0 meas s 0 s.cam0 (Or.inl ⟨rfl, rfl⟩) _ (f0 t) (by rw [ht]; exact h0 t (by simp)), ht]
    have e1 : cost s (addGrid k1 meas 1 (grids1 t)) =
        some (((grids1 t).corners.map (f1 t)).sum + (grids1 t).corners.length * jointSq meas s t) := by
      by_cases hc : (grids1 t).corners = []
      · simp [addGrid, hc, cost]
      · have ht := ht1 t (by simp) hc
        rw [cost_grid k1 meas s 1 s.cam1 (Or.inr ⟨rfl, rfl⟩) _ (f1 t) (by rw [ht]; exact h1 t (by simp)), ht]
    rw [e0, e1]
    simp only [Option.bind_some, Option.map_some, List.map_cons, List.sum_cons, Option.some.injEq]
    ring

/-- Is this the error of joint `i` at `ts`? -/
def Res.isJoint (i : Fin 3) (ts : ℤ) : Res → Bool
  | .joint _ _ j t => i = j ∧ ts = t
  | _ => false

theorem count_grid (k : Cam.Params) (meas : ℤ → Fin 3 → ℝ) (i : Nat) (g : Grid) (j : Fin 3) (ts : ℤ) :
    (addGrid k meas i g).countP (Res.isJoint j ts) = if g.ts = ts then g.corners.length else 0 := by
  obtain ⟨t, cs⟩ := g
  unfold addGrid
  simp only
  induction cs with
  | nil => simp
  | cons c cs ih =>
    rw [List.flatMap_cons, List.countP_append, ih]
    by_cases h : t = ts
    · subst h
      fin_cases j <;> simp [Res.isJoint] <;> omega
    · have h' : ¬ ts = t := fun e => h e.symm
      simp [Res.isJoint, h, h']

/-- How often the measurement of a joint angle enters the problem: once for every corner both cameras see. -/
theorem C125_joint_count (k0 k1 : Cam.Params) (meas : ℤ → Fin 3 → ℝ) (grids0 grids1 : ℤ → Grid) (train : List ℤ)
    (hd : train.Nodup) (ht : ∀ ts ∈ train, (grids0 ts).ts = ts ∧ (grids1 ts).ts = ts) (i : Fin 3) (ts : ℤ) (hts : ts ∈ train) :
    (problem k0 k1 meas grids0 grids1 train).countP (Res.isJoint i ts) =
      (grids0 ts).corners.length + (grids1 ts).corners.length := by
  have key : ∀ l : List ℤ, l.Nodup → (∀ t ∈ l, (grids0 t).ts = t ∧ (grids1 t).ts = t) →
      (problem k0 k1 meas grids0 grids1 l).countP (Res.isJoint i ts) =
        if ts ∈ l then (grids0 ts).corners.length + (grids1 ts).corners.length else 0 := by
    intro l
    induction l with
    | nil => intro _ _; simp [problem]
    | cons t l ih =>
      intro hn hl
      have ih := ih (List.nodup_cons.mp hn).2 (fun x hx => hl x (by simp [hx]))
      unfold problem at ih ⊢
      rw [List.flatMap_cons, List.countP_append, List.countP_append, ih, count_grid, count_grid,
        (hl t (by simp)).1, (hl t (by simp)).2]
      by_cases h : t = ts
      · subst h
        rw [if_pos rfl, if_pos rfl, if_neg (List.nodup_cons.mp hn).1, if_pos (by simp)]; omega
      · rw [if_neg h, if_neg h]
        by_cases h2 : ts ∈ l
        · rw [if_pos h2, if_pos (by simp [h2])]; omega
        · rw [if_neg h2, if_neg (by simp [h2]; exact fun e => h e.symm)]
  rw [key train hd ht, if_pos hts]

/-- So the measurement of one angle is not used once: with eighty corners it counts eighty times. -/
theorem C125_weight_refuted : ∃ (grids0 grids1 : ℤ → Grid) (train : List ℤ), train.Nodup ∧
    ∀ (k0 k1 : Cam.Params) (meas : ℤ → Fin 3 → ℝ) (i : Fin 3),
      (problem k0 k1 meas grids0 grids1 train).countP (Res.isJoint i 7) = 80 := by
  refine ⟨fun t => ⟨t, List.replicate 80 ((0, 0), 0)⟩, fun t => ⟨t, []⟩, [7], by simp, fun k0 k1 meas i => ?_⟩
  rw [C125_joint_count k0 k1 meas _ _ [7] (by simp) (by simp) i 7 (by simp)]
  simp

/-! ### C125: what the solver may change -/

/-- The pose blocks. -/
def State.value (s : State) : Block → Option (Fin 7 → ℝ)
  | .pose => some s.pose
  | .gimbal => some s.gimbal
  | .link0 => some s.link0
  | .link1 => some s.link1
  | .effector => some s.effector
  | .cam0 => some s.cam0
  | .cam1 => some s.cam1
  | .target => some s.target
  | .joint _ _ => none

/-- What `ceres::Solve` guarantees: constant blocks keep their value, and so do the components the manifold of a block
holds. -/
def Solved (s s' : State) : Prop :=
  (∀ b, isConstant b = true → s'.value b = s.value b) ∧
  ∀ b v v', s.value b = some v → s'.value b = some v' → ∀ i ∈ keeps b, v' i = v i

/-- The calibration never changes the camera poses on the end effector (so neither the transform between the
cameras), the pose of the gimbal, nor the first two coordinates of the link offsets; end effector, target and the rest
of the links are free. -/
theorem C125_fixed (s s' : State) (h : Solved s s') :
    (s'.cam0 = s.cam0 ∧ s'.cam1 = s.cam1 ∧ s'.gimbal = s.gimbal ∧ s'.pose = s.pose) ∧
    (transform s'.cam0)⁻¹ * transform s'.cam1 = (transform s.cam0)⁻¹ * transform s.cam1 ∧
    (s'.link0 0 = s.link0 0 ∧ s'.link0 1 = s.link0 1 ∧ s'.link1 0 = s.link1 0 ∧ s'.link1 1 = s.link1 1) := by
  obtain ⟨h1, h2⟩ := h
  have a : s'.cam0 = s.cam0 := Option.some.inj (h1 .cam0 rfl)
  have b : s'.cam1 = s.cam1 := Option.some.inj (h1 .cam1 rfl)
  refine ⟨⟨a, b, Option.some.inj (h1 .gimbal rfl), Option.some.inj (h1 .pose rfl)⟩, by rw [a, b],
    h2 .link0 _ _ rfl rfl 0 (by simp [keeps]), h2 .link0 _ _ rfl rfl 1 (by simp [keeps]),
    h2 .link1 _ _ rfl rfl 0 (by simp [keeps]), h2 .link1 _ _ rfl rfl 1 (by simp [keeps])⟩

/-- Everything else may be changed. -/
theorem C125_free (s : State) (effector target l0 l1 : Fin 7 → ℝ) (joints : ℤ → Fin 3 → ℝ)
    (h0 : l0 0 = s.link0 0 ∧ l0 1 = s.link0 1) (h1 : l1 0 = s.link1 0 ∧ l1 1 = s.link1 1) :
    Solved s { s with effector := effector, target := target, link0 := l0, link1 := l1, joints := joints } := by
  refine ⟨fun b hb => ?_, fun b v v' hv hv' i hi => ?_⟩
  · cases b <;> first | rfl | cases hb
  · cases b <;> simp only [keeps, List.not_mem_nil, List.mem_cons, or_false] at hi
    · cases hv; cases hv'
      rcases hi with rfl | rfl
      · exact h0.1
      · exact h0.2
    · cases hv; cases hv'
      rcases hi with rfl | rfl
      · exact h1.1
      · exact h1.2

/-! ### C125: the results -/

theorem inspect_ok (d : Loaded) (test : List ℤ) :
    (inspect d test = .ok () ↔ ∀ t ∈ test, t ∈ d.joints ∧ t ∈ d.grids0 ∧ 0 ∈ d.cams ∧ t ∈ d.images0) ∧
    (inspect d test = .ok () ∨ inspect d test = .error .exn) := by
  induction test with
  | nil => simp [inspect]
  | cons t test ih =>
    unfold inspect
    by_cases h1 : t ∈ d.joints
    · by_cases h2 : t ∈ d.grids0
      · by_cases h3 : 0 ∈ d.cams
        · by_cases h4 : t ∈ d.images0
          · rw [if_neg (by simpa using h1), if_neg (by simpa using h2), if_neg (by simpa using h3), if_neg (by simpa using h4)]
            refine ⟨?_, ih.2⟩
            rw [ih.1]
            simp [h1, h2, h3, h4]
          · simp [h1, h2, h3, h4]
        · simp [h1, h2, h3]
          exact ⟨t, fun h => absurd rfl h⟩
      · simp [h1, h2]
    · simp [h1]

/-- The results are written if and only if there are joint angles and an image of the first camera for every test
timestamp, and a first camera; otherwise the program ends with an exception after the optimisation, and nothing is
written.  (A missing grid is no obstacle: the initial guess has inserted an empty one.) -/
theorem C125_saved (d : Loaded) (ts sh : List ℤ) (hp : sh.Perm ts) (h0 : ts ≠ []) (hn : ts.length < 2 ^ 31) :
    ((finish d ts sh = .ok ()) ↔ ∀ t ∈ sh.drop (4 * ts.length / 5 + 1), t ∈ d.joints ∧ t ∈ d.images0 ∧ 0 ∈ d.cams) ∧
    (finish d ts sh = .ok () ∨ finish d ts sh = .error .exn) := by
  have hl : sh.length = ts.length := hp.length_eq
  have hpos : 0 < ts.length := List.length_pos_iff.mpr h0
  have hs : splitData sh = .ok (sh.take (4 * ts.length / 5), sh.drop (4 * ts.length / 5 + 1)) := by
    unfold splitData
    simp only [hl, trainCount_eq hn]
    rw [if_neg (by omega)]
  have hfin : finish d ts sh = inspect (afterInit d ts) (sh.drop (4 * ts.length / 5 + 1)) := by
    unfold finish
    rw [hs]; rfl
  rw [hfin]
  refine ⟨?_, (inspect_ok _ _).2⟩
  rw [(inspect_ok _ _).1]
  constructor
  · intro h t ht
    obtain ⟨a, -, b, c⟩ := h t ht
    exact ⟨a, c, b⟩
  · intro h t ht
    obtain ⟨a, b, c⟩ := h t ht
    have hm : t ∈ ts := hp.mem_iff.mp (List.mem_of_mem_drop ht)
    exact ⟨a, by simp [afterInit, hm], c, b⟩

/-- One missing image: whether the results of the same data are written depends on the shuffle. -/
theorem C125_lost_refuted : ∃ (d : Loaded) (ts sh sh' : List ℤ), sh.Perm ts ∧ sh'.Perm ts ∧ finish d ts sh = .ok () ∧
    finish d ts sh' = .error .exn := by
  refine ⟨⟨[1, 2, 3, 4, 5, 6], [], [1, 2, 3, 4, 5], [0, 1]⟩, [1, 2, 3, 4, 5, 6], [6, 1, 2, 3, 4, 5], [1, 2, 3, 4, 5, 6], by decide,
    by decide, ?_, ?_⟩
  · rw [(C125_saved _ _ _ (by decide) (by simp) (by norm_num)).1]
    decide
  · have h := C125_saved ⟨[1, 2, 3, 4, 5, 6], [], [1, 2, 3, 4, 5], [0, 1]⟩ [1, 2, 3, 4, 5, 6] [1, 2, 3, 4, 5, 6] (by decide)
      (by simp) (by norm_num)
    rcases h.2 with h2 | h2
    · exact absurd (h.1.mp h2) (by decide)
    · exact h2

example : ∃ train dropped test, splitData [3, 1, 2] = .ok (train, test) ∧ train.length = 2 ∧ (train ++ dropped :: test).Perm [1, 2, 3] ∧
    (([1, 2, 3] : List ℤ).Nodup → ∀ t ∈ train, t ∉ test) := C125_split [1, 2, 3] [3, 1, 2] (by decide) (by simp) (by norm_num)

/-! ### A concrete problem: the target two metres in front of a camera on the axes of all joints -/

/-- The pose at the origin. -/
def here : Fin 7 → ℝ := ![0, 0, 0, 1, 0, 0, 0]

/-- All frames at the origin, the target two metres ahead, all joints turned by one radian. -/
def demoState : State := ⟨here, here, here, here, here, here, here, ![0, 0, 2, 1, 0, 0, 0], fun _ _ => 1⟩

theorem spin_one (x : Vec3 ℝ) : spin 1 0 0 0 x = x := by
  rw [spin_eq]
  ext i
  fin_cases i <;> simp [rotOf, Matrix.mulVec, dotProduct, Fin.sum_univ_three]

theorem place_here (x : Vec3 ℝ) : place here x = x := by
  funext i
  unfold place
  have : spin (here 3) (here 4) (here 5) (here 6) x = x := spin_one x
  rw [this]
  fin_cases i <;> simp [here]

theorem turn_axis (a : ℝ) : turn a ![0, 0, 2] = ![0, 0, 2] := by
  ext i; fin_cases i <;> simp [turn]

theorem demo_pixel : PixelSq ![1, 1, 0, 0, 0, 0, 0, 0] demoState 7 here ((0, 0), 0) 0 := by
  have hu : IsUnit7 here := by simp [IsUnit7, here]
  have ht : IsUnit7 (![0, 0, 2, 1, 0, 0, 0] : Fin 7 → ℝ) := by simp [IsUnit7]
  refine ⟨(0, 0), (0, 0), ?_, ?_, by norm_num⟩
  · have e : Cam.radtanUndistort ![1, 1, 0, 0, 0, 0, 0, 0] ![0, 0] = some ![0, 0] := by
      have h1 : Cam.unpixel ![1, 1, 0, 0, 0, 0, 0, 0] ![0, 0] = some ![0, 0] := by
        unfold Cam.unpixel
        rw [if_neg (by simp)]
        simp
      have h2 : Cam.dist ![1, 1, 0, 0, 0, 0, 0, 0] = ![0, 0, 0, 0] := by
        ext i; fin_cases i <;> rfl
      unfold Cam.radtanUndistort
      rw [h1, h2]
      show (Cam.radtan4Undistort ![0, 0, 0, 0] ![0, 0]).bind _ = _
      rw [Cam.radtan4_undistort_zero]
      simp
    unfold undistortKp
    rw [e]; rfl
  · rw [C123_zero _ ⟨hu, hu, hu, hu, hu, hu, ht⟩]
    refine ⟨![0, 0, 2], ?_, by simp, by simp [pinhole]⟩
    have h1 : place (![0, 0, 2, 1, 0, 0, 0] : Fin 7 → ℝ) 0 = ![0, 0, 2] := by
      funext i
      unfold place
      have : spin ((![0, 0, 2, 1, 0, 0, 0] : Fin 7 → ℝ) 3) ((![0, 0, 2, 1, 0, 0, 0] : Fin 7 → ℝ) 4)
          ((![0, 0, 2, 1, 0, 0, 0] : Fin 7 → ℝ) 5) ((![0, 0, 2, 1, 0, 0, 0] : Fin 7 → ℝ) 6) 0 = 0 := spin_one 0
      rw [this]
      fin_cases i <;> simp
    show inWorld ⟨here, here, here, here, 1, 1, 1, here, here, ![0, 0, 2, 1, 0, 0, 0]⟩ ![0, 0, 2] = place ![0, 0, 2, 1, 0, 0, 0] 0
    rw [h1]
    simp only [inWorld, place_here, turn_axis]

/-- Two corners at timestamp 7 and joint angles measured as zero: no pixel error, and the three deviations of one
radian count twice. -/
example : cost demoState (problem ![1, 1, 0, 0, 0, 0, 0, 0] ![1, 1, 0, 0, 0, 0, 0, 0] (fun _ _ => 0)
    (fun t => ⟨t, [((0, 0), 0), ((0, 0), 0)]⟩) (fun t => ⟨t, []⟩) [7]) = some 600 := by
  rw [C125_cost _ _ _ _ _ _ demoState (fun _ _ => 0) (fun _ _ => 0) (fun _ _ _ => rfl) (fun _ _ _ => rfl)
    (by
      intro ts hts c hc
      obtain rfl : ts = 7 := by simpa using hts
      obtain rfl : c = ((0, 0), 0) := by simpa using hc
      exact demo_pixel)
    (by intro ts _ c hc; simp at hc)]
  simp [jointSq, demoState]
  norm_num

example : Solved demoState { demoState with target := here } :=
  C125_free demoState demoState.effector here demoState.link0 demoState.link1 demoState.joints ⟨rfl, rfl⟩ ⟨rfl, rfl⟩

end Yac.Gimbal
