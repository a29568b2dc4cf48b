import Verif.Nbv.Model
import Verif.AprilGrid.Props
import Verif.Residual.Motion
import Verif.Misc.Props
import Verif.Cam.Props
import Verif.Num.Props

/-! Lemmas for the next-best-view helpers. -/

namespace Yac.Nbv
open Matrix Yac.Geom Yac.Cam AprilGrid.Spec
open AprilGrid (Grid Op)

/-! ### Poses -/

theorem rot_det_ne {C : Mat3 ℝ} (h : IsRot C) : C.det ≠ 0 := by rw [h.2]; exact one_ne_zero

theorem tf_det_ne {C : Mat3 ℝ} (h : IsRot C) (r : Vec3 ℝ) : (tf C r).det ≠ 0 := by
  have e : tf C r * tf C⁻¹ (-(C⁻¹ *ᵥ r)) = 1 := by
    rw [tf_mul, mul_nonsing_inv _ (isUnit_iff_ne_zero.mpr (rot_det_ne h)), mulVec_neg, mulVec_mulVec,
      mul_nonsing_inv _ (isUnit_iff_ne_zero.mpr (rot_det_ne h)), one_mulVec, neg_add_cancel, tf_one]
  have := congrArg Matrix.det e
  rw [det_mul, det_one] at this
  intro h0
  rw [h0, zero_mul] at this
  exact zero_ne_one this

theorem inverse_tf {C : Mat3 ℝ} (h : IsRot C) (r : Vec3 ℝ) : inverse (tf C r) = .ok (tf C r)⁻¹ := by
  rw [inverse, if_neg (tf_det_ne h r)]

/-- The inverse pose takes a point to its camera coordinates. -/
theorem inv_point {C : Mat3 ℝ} (h : IsRot C) (r p q : Vec3 ℝ) :
    tfPoint (tf C r)⁻¹ p = q ↔ tfPoint (tf C r) q = p := by
  have hu := isUnit_iff_ne_zero.mpr (rot_det_ne h)
  rw [Residual.tf_inverse _ _ (rot_det_ne h), Residual.tfPoint_tf, Residual.tfPoint_tf]
  constructor
  · rintro rfl
    rw [mulVec_add, mulVec_mulVec, mulVec_neg, mulVec_mulVec, mul_nonsing_inv _ hu, one_mulVec, one_mulVec]
    simp
  · rintro rfl
    rw [mulVec_add, mulVec_mulVec, nonsing_inv_mul _ hu, one_mulVec]
    simp

/-! ### The corners of the target -/

theorem mem_corners (n t c : Nat) : (t, c) ∈ corners n ↔ t < n ∧ c < 4 := by
  simp [corners]

theorem corners_nodup (n : Nat) : (corners n).Nodup := by
  unfold corners
  rw [List.nodup_flatMap]
  refine ⟨fun t _ => List.Nodup.map (fun a b h => (Prod.mk.inj h).2) List.nodup_range, ?_⟩
  refine List.Pairwise.imp ?_ (List.nodup_range (n := n))
  intro a b hab
  rw [Function.onFun, List.disjoint_left]
  intro x hx hy
  rw [List.mem_map] at hx hy
  obtain ⟨c, -, rfl⟩ := hx
  obtain ⟨d, -, h⟩ := hy
  exact hab (Prod.mk.inj h).1.symm

/-- The position of a corner on the board. -/
noncomputable def corner (tg : Target) (t c : Nat) : Vec3 ℝ :=
  vec (boardPoint tg.cols tg.size tg.spacing t c)

/-- The projection of a corner. -/
noncomputable def image (tg : Target) (cam : Camera) (T : Mat4 ℝ) (tc : Nat × Nat) : ProjRes :=
  cam.project (tfPoint T (corner tg tc.1 tc.2))

/-- The pixel of a corner. -/
noncomputable def spot (tg : Target) (cam : Camera) (T : Mat4 ℝ) (tc : Nat × Nat) : ℝ × ℝ :=
  (((image tg cam T tc).zhat.getD ![0, 0]) 0, ((image tg cam T tc).zhat.getD ![0, 0]) 1)

/-- The `add` call made for a corner. -/
noncomputable def seenOp (tg : Target) (cam : Camera) (T : Mat4 ℝ) (tc : Nat × Nat) : Option (Op ℝ) :=
  if (image tg cam T tc).code = 0 then some (.add tc.1 tc.2 (spot tg cam T tc)) else none

/-- The `add` calls made for a list of corners. -/
noncomputable def seenOps (tg : Target) (cam : Camera) (T : Mat4 ℝ) (l : List (Nat × Nat)) : List (Op ℝ) :=
  l.filterMap (seenOp tg cam T)

theorem seenOps_valid (tg : Target) (cam : Camera) (T : Mat4 ℝ) (l : List (Nat × Nat))
    (hl : ∀ tc ∈ l, tc.1 < tg.rows * tg.cols ∧ tc.2 < 4) :
    ∀ op ∈ seenOps tg cam T l, OpValid tg.rows tg.cols op := by
  intro op hop
  rw [seenOps, List.mem_filterMap] at hop
  obtain ⟨tc, htc, h⟩ := hop
  unfold seenOp at h
  by_cases hc : (image tg cam T tc).code = 0
  · rw [if_pos hc] at h
    injection h with h
    subst h
    obtain ⟨h1, h2⟩ := hl tc htc
    have : ((tc.1 : Nat) : Int) < ((tg.rows * tg.cols : Nat) : Int) := by exact_mod_cast h1
    refine ⟨by omega, by exact_mod_cast h1, by omega, by omega⟩
  · rw [if_neg hc] at h; cases h

theorem seenOps_concat (tg : Target) (cam : Camera) (T : Mat4 ℝ) (l : List (Nat × Nat)) (tc : Nat × Nat) :
    seenOps tg cam T (l ++ [tc]) = seenOps tg cam T l ++ (seenOp tg cam T tc).toList := by
  unfold seenOps
  rw [List.filterMap_append]
  congr 1

/-- What the calls leave in the map. -/
theorem seen_map (tg : Target) (cam : Camera) (T : Mat4 ℝ) (l : List (Nat × Nat)) (hn : l.Nodup) :
    overwrites (seenOps tg cam T l) = 0 ∧ ∀ t c : Nat,
      AprilGrid.Spec.run (seenOps tg cam T l) t c =
        if (t, c) ∈ l ∧ (image tg cam T (t, c)).code = 0 then some (spot tg cam T (t, c)) else none := by
  induction l using List.reverseRecOn with
  | nil => exact ⟨rfl, fun t c => by rw [if_neg (by simp)]; rfl⟩
  | append_singleton l tc ih =>
    rw [List.nodup_append] at hn
    obtain ⟨h1, -, h3⟩ := hn
    obtain ⟨i1, i2⟩ := ih h1
    have hni : tc ∉ l := fun h => h3 tc h tc (by simp) rfl
    obtain ⟨t0, c0⟩ := tc
    rw [seenOps_concat]
    unfold seenOp
    by_cases hc : (image tg cam T (t0, c0)).code = 0
    · rw [if_pos hc]
      have e : AprilGrid.Spec.run (seenOps tg cam T l ++ (some (Op.add (t0 : Int) (c0 : Int) (spot tg cam T (t0, c0)))).toList)
          = AprilGrid.Spec.step (AprilGrid.Spec.run (seenOps tg cam T l)) (.add t0 c0 (spot tg cam T (t0, c0))) := by
        simp [AprilGrid.Spec.run]
      have hov : overwrites (seenOps tg cam T l ++ (some (Op.add (t0 : Int) (c0 : Int) (spot tg cam T (t0, c0)))).toList) =
          (trackStep (AprilGrid.Spec.run (seenOps tg cam T l), overwrites (seenOps tg cam T l))
            (.add t0 c0 (spot tg cam T (t0, c0)))).2 := by
        rw [overwrites, List.foldl_append, ← AprilGrid.track_fst (seenOps tg cam T l)]
        rfl
      have hnone : AprilGrid.Spec.run (seenOps tg cam T l) t0 c0 = none := by
        rw [i2, if_neg (fun h => hni h.1)]
      constructor
      · show overwrites (seenOps tg cam T l ++ (some (Op.add (t0 : Int) (c0 : Int) (spot tg cam T (t0, c0)))).toList) = 0
        rw [hov]
        simp only [trackStep, hnone, i1]
        rfl
      · intro t c
        show AprilGrid.Spec.run (seenOps tg cam T l ++ (some (Op.add (t0 : Int) (c0 : Int) (spot tg cam T (t0, c0)))).toList) t c = _
        rw [e]
        simp only [AprilGrid.Spec.step]
        by_cases h : t = t0 ∧ c = c0
        · obtain ⟨rfl, rfl⟩ := h
          rw [if_pos ⟨rfl, rfl⟩, if_pos ⟨by simp, hc⟩]
        · rw [if_neg (by rintro ⟨a, b⟩; exact h ⟨by exact_mod_cast a, by exact_mod_cast b⟩), i2]
          congr 1
          rw [List.mem_append, List.mem_singleton, Prod.mk.injEq]
          simp only [h, or_false]
    · rw [if_neg hc]
      simp only [Option.toList_none, List.append_nil]
      refine ⟨i1, fun t c => ?_⟩
      rw [i2]
      congr 1
      rw [List.mem_append, List.mem_singleton, Prod.mk.injEq]
      by_cases h : t = t0 ∧ c = c0
      · obtain ⟨rfl, rfl⟩ := h
        simp [hc]
      · simp only [h, or_false]

/-- `nbv_target_grid` makes these calls. -/
theorem addSeen_run (tg : Target) (cam : Camera) (ts : ℤ) (T : Mat4 ℝ) (l : List (Nat × Nat))
    (hl : ∀ tc ∈ l, tc.1 < tg.rows * tg.cols ∧ tc.2 < 4) :
    l.foldlM (addSeen cam T) (emptyGrid ts tg) =
      AprilGrid.run (AprilGrid.new ts tg.rows tg.cols tg.size tg.spacing) (seenOps tg cam T l) := by
  induction l using List.reverseRecOn with
  | nil => rfl
  | append_singleton l tc ih =>
    have hl' : ∀ x ∈ l, x.1 < tg.rows * tg.cols ∧ x.2 < 4 := fun x hx => hl x (List.mem_append_left _ hx)
    obtain ⟨h1, h2⟩ := hl tc (by simp)
    have hv := seenOps_valid tg cam T l hl'
    obtain ⟨g, hg, -⟩ := AprilGrid.C01_map_refinement ts tg.rows tg.cols tg.size tg.spacing _ hv
    obtain ⟨-, -, f1, f2, f3, f4, -⟩ := AprilGrid.C01_frame ts tg.rows tg.cols tg.size tg.spacing _ hv g hg
    rw [AprilGrid.foldlM_concat, ih hl', hg, AprilGrid.ok_bind, seenOps_concat]
    have hp : AprilGrid.objectPoint g tc.1 tc.2 = .ok (boardPoint tg.cols tg.size tg.spacing tc.1 tc.2) := by
      rw [AprilGrid.C05_object_point g tc.1 tc.2 (by rw [f1, f2]; exact h1) h2, f2, f3, f4]
    have hr : AprilGrid.run (AprilGrid.new ts tg.rows tg.cols tg.size tg.spacing)
        (seenOps tg cam T l ++ (seenOp tg cam T tc).toList) =
        (seenOp tg cam T tc).toList.foldlM AprilGrid.step g := by
      unfold AprilGrid.run at hg ⊢
      rw [List.foldlM_append, hg]
      rfl
    rw [hr, addSeen, hp, AprilGrid.ok_bind]
    show (if (image tg cam T tc).code = 0 then _ else _) = _
    unfold seenOp
    by_cases hc : (image tg cam T tc).code = 0
    · rw [if_pos hc, if_pos hc]
      show AprilGrid.add g tc.1 tc.2 (spot tg cam T tc) = (AprilGrid.step g _ >>= fun g => pure g)
      rw [bind_pure]
      rfl
    · rw [if_neg hc, if_neg hc]
      rfl

/-- A successful projection writes a pixel. -/
theorem project_writes (cam : Camera) (p : Vec3 ℝ) (h : (cam.project p).code = 0) :
    ∃ z, (cam.project p).zhat = some z := by
  obtain ⟨lens, res, params⟩ := cam
  cases lens with
  | radtan =>
    simp only [Camera.project] at h ⊢
    unfold radtanProject at h ⊢
    cases hp : projectPoint p with
    | none => rw [hp] at h; exact absurd h (by norm_num)
    | some x => exact ⟨_, rfl⟩
  | equi =>
    simp only [Camera.project] at h ⊢
    unfold equiProject at h ⊢
    by_cases hz : p 2 < 0
    · rw [if_pos hz] at h; exact absurd h (by norm_num)
    · rw [if_neg hz] at h ⊢
      cases hp : projectPoint p with
      | none => rw [hp] at h; exact absurd h (by norm_num)
      | some x => exact ⟨_, rfl⟩

/-- The loop of `check_fully_observable`. -/
theorem allSeen_eq (tg : Target) (cam : Camera) (T : Mat4 ℝ) (l : List (Nat × Nat))
    (hl : ∀ tc ∈ l, tc.1 < tg.rows * tg.cols ∧ tc.2 < 4) :
    ∃ b, allSeen cam (emptyGrid 0 tg) T l = .ok b ∧ (b = true ↔ ∀ tc ∈ l, (image tg cam T tc).code = 0) := by
  induction l with
  | nil => exact ⟨true, rfl, by simp⟩
  | cons tc l ih =>
    obtain ⟨b, hb, hi⟩ := ih (fun x hx => hl x (List.mem_cons_of_mem _ hx))
    obtain ⟨h1, h2⟩ := hl tc (by simp)
    have hp : AprilGrid.objectPoint (emptyGrid 0 tg) tc.1 tc.2 =
        .ok (boardPoint tg.cols tg.size tg.spacing tc.1 tc.2) :=
      AprilGrid.C05_object_point (emptyGrid 0 tg) tc.1 tc.2 h1 h2
    rw [allSeen, hp, AprilGrid.ok_bind]
    show ∃ b, (if (image tg cam T tc).code ≠ 0 then _ else _) = Except.ok b ∧ _
    by_cases hc : (image tg cam T tc).code = 0
    · rw [if_neg (not_not.mpr hc)]
      exact ⟨b, hb, by rw [hi, List.forall_mem_cons]; simp [hc]⟩
    · rw [if_pos hc]
      refine ⟨false, rfl, ?_⟩
      rw [List.forall_mem_cons]
      simp [hc]

end Yac.Nbv
