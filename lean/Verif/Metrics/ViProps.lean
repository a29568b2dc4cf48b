import Verif.Metrics.ReportProps

/-!
# C115: the report of the visual-inertial calibration, counterexamples and a witness
-/

namespace Yac.Metrics
open Matrix Yac.Geom Yac.Cam Yac.Residual

namespace Spec

/-- The length of the residual vector, whatever the return code. -/
noncomputable def len (o : Out) : ℝ :=
  match o.2 with
  | some r => Real.sqrt (r 0 ^ 2 + r 1 ^ 2)
  | none => 0

/-- The lengths of all residuals of a camera, by view. -/
noncomputable def viOfCam {R : Type} (out : R → Out) (views : List (List (Int × List R))) (c : Int) :
    List ℝ :=
  views.flatMap fun v => (v.filter (fun cr => decide (cr.1 = c))).flatMap fun cr =>
    cr.2.map fun f => len (out f)

end Spec

section vi
variable {R : Type} (out : R → Out)

theorem always_eq {o : Out} (h : o.2 ≠ none) : always o = .ok (Spec.len o) := by
  cases hr : o.2 with
  | none => exact absurd hr h
  | some r => simp only [always, hr, readR, ok_map, Spec.len, norm2_eq]

theorem mapM_always (fs : List R) (h : ∀ f ∈ fs, (out f).2 ≠ none) :
    fs.mapM (fun f => always (out f)) = .ok (fs.map fun f => Spec.len (out f)) := by
  induction fs with
  | nil => rfl
  | cons f fs ih =>
    rw [List.mapM_cons, always_eq (h f (by simp)), AprilGrid.ok_bind,
      ih (fun g hg => h g (by simp [hg]))]
    rfl

/-- In a map with distinct keys the entries of a key are the one `find` returns. -/
theorem find_filter (v : List (Int × List R)) (hs : SMap.Sorted v) (c : Int) :
    v.filter (fun cr => decide (cr.1 = c)) =
      match SMap.find c v with
      | some l => [(c, l)]
      | none => [] := by
  induction v with
  | nil => rfl
  | cons cr v ih =>
    unfold SMap.Sorted at hs
    rw [List.pairwise_cons] at hs
    obtain ⟨k, l⟩ := cr
    by_cases hk : k = c
    · subst hk
      have : v.filter (fun cr => decide (cr.1 = k)) = [] := by
        rw [List.filter_eq_nil_iff]
        intro a ha
        have := hs.1 a ha
        simp at this ⊢
        omega
      simp [SMap.find, this]
    · simp only [SMap.find, if_neg hk]
      rw [← ih hs.2]
      simp [hk]

/-- What a view contributes to a camera. -/
noncomputable def viViewOf (v : List (Int × List R)) (c : Int) : List ℝ :=
  (v.filter (fun cr => decide (cr.1 = c))).flatMap fun cr => cr.2.map fun f => Spec.len (out f)

theorem viViewErrors_eq (v : List (Int × List R)) (hs : SMap.Sorted v)
    (h : ∀ cr ∈ v, ∀ f ∈ cr.2, (out f).2 ≠ none) (c : Int) :
    viViewErrors out v c = .ok (viViewOf out v c) := by
  rw [viViewErrors, viViewOf, find_filter v hs c]
  cases hf : SMap.find c v with
  | none => rfl
  | some fs =>
    have hm := (SMap.find_eq_some hs).1 hf
    simp only [mapM_always out fs (h (c, fs) hm)]
    simp

theorem viAddCams (v : List (Int × List R)) (hs : SMap.Sorted v)
    (h : ∀ cr ∈ v, ∀ f ∈ cr.2, (out f).2 ≠ none) (cams : List Int) (hn : cams.Nodup)
    (m : List (Int × List ℝ)) (hm : SMap.Sorted m) :
    ∃ m', cams.foldlM (viAddCam out v) m = .ok m' ∧ SMap.Sorted m' ∧
      ∀ c, SMap.find c m' = if c ∈ cams then
        some ((SMap.find c m).getD [] ++ viViewOf out v c) else SMap.find c m := by
  induction cams generalizing m with
  | nil => exact ⟨m, rfl, hm, by simp⟩
  | cons a cams ih =>
    have h1 : viAddCam out v m a =
        .ok (SMap.set a ((SMap.find a m).getD [] ++ viViewOf out v a) m) := by
      rw [viAddCam, viViewErrors_eq out v hs h]; rfl
    rw [List.nodup_cons] at hn
    obtain ⟨m', e, hs', hf⟩ := ih hn.2 _ (SMap.set_sorted _ _ _ hm)
    refine ⟨m', by rw [List.foldlM_cons, h1, AprilGrid.ok_bind, e], hs', fun c => ?_⟩
    rw [hf c]
    simp only [SMap.find_set]
    by_cases hca : c = a
    · subst hca; simp [hn.1]
    · simp [hca]

theorem rows_keys (m : List (Int × List ℝ)) (cs : List (Int × Row))
    (h : List.Forall₂ (fun (ce : Int × List ℝ) (cr : Int × Row) => cr.1 = ce.1 ∧ Spec.IsRow cr.2 ce.2) m cs) :
    cs.map Prod.fst = m.map Prod.fst := by
  induction h with
  | nil => rfl
  | cons hd _ ih => rw [List.map_cons, List.map_cons, hd.1, ih]

/-- C115, visual-inertial: with at least one view and every residual written, the map has an entry
for every camera of the calibration, listing the lengths of all its residuals in the order of the
views, and the printed metrics are the statistics of these lists, provided every camera has a
residual.  Residuals that do not evaluate are counted as well (`C115_vi_invalid_refuted`). -/
theorem C115_vi_partial (cams : List Int) (hn : cams.Nodup) (views : List (List (Int × List R)))
    (hv : views ≠ []) (hs : ∀ v ∈ views, SMap.Sorted v)
    (h : ∀ v ∈ views, ∀ cr ∈ v, ∀ f ∈ cr.2, (out f).2 ≠ none) :
    ∃ m, viErrors out cams views = .ok m ∧ SMap.Sorted m ∧
      (∀ c, SMap.find c m = if c ∈ cams then some (Spec.viOfCam out views c) else none) ∧
      (cams ≠ [] → (∀ c ∈ cams, Spec.viOfCam out views c ≠ []) →
        ∃ rep, viReport out cams views = .ok rep ∧ rep.nbViews = views.length ∧
          Spec.IsRow rep.total (m.flatMap Prod.snd) ∧
          (∀ cr ∈ rep.cams, cr.1 ∈ cams ∧ Spec.IsRow cr.2 (Spec.viOfCam out views cr.1)) ∧
          (∀ c ∈ cams, c ∈ rep.cams.map Prod.fst) ∧
          (rep.cams.map fun cr => cr.2.nbCorners).sum = rep.total.nbCorners) := by
  have key : ∀ vs : List (List (Int × List R)), (∀ v ∈ vs, SMap.Sorted v) →
      (∀ v ∈ vs, ∀ cr ∈ v, ∀ f ∈ cr.2, (out f).2 ≠ none) →
      ∀ (m : List (Int × List ℝ)) (g : Int → List ℝ), SMap.Sorted m →
        (∀ c, SMap.find c m = if c ∈ cams then some (g c) else none) →
        ∃ m', vs.foldlM (fun m v => cams.foldlM (viAddCam out v) m) m = .ok m' ∧ SMap.Sorted m' ∧
          ∀ c, SMap.find c m' = if c ∈ cams then some (g c ++ Spec.viOfCam out vs c) else none := by
    intro vs
    induction vs with
    | nil => intro _ _ m g hm hg; exact ⟨m, rfl, hm, by simpa [Spec.viOfCam] using hg⟩
    | cons v vs ih =>
      intro hso hw m g hm hg
      obtain ⟨m1, e1, s1, f1⟩ := viAddCams out v (hso v (by simp)) (hw v (by simp)) cams hn m hm
      obtain ⟨m2, e2, s2, f2⟩ := ih (fun w hwv => hso w (by simp [hwv]))
        (fun w hwv => hw w (by simp [hwv])) m1 (fun c => g c ++ viViewOf out v c) s1 (by
          intro c
          rw [f1 c, hg c]
          by_cases hc : c ∈ cams <;> simp [hc])
      refine ⟨m2, by rw [List.foldlM_cons, e1, AprilGrid.ok_bind, e2], s2, fun c => ?_⟩
      rw [f2 c]
      simp [Spec.viOfCam, viViewOf, List.append_assoc]
  obtain ⟨v, vs, rfl⟩ := List.exists_cons_of_ne_nil hv
  obtain ⟨m1, e1, s1, f1⟩ := viAddCams out v (hs v (by simp)) (h v (by simp)) cams hn []
    (by simp [SMap.Sorted])
  obtain ⟨m, e2, s2, f2⟩ := key vs (fun w hw => hs w (by simp [hw])) (fun w hw => h w (by simp [hw]))
    m1 (viViewOf out v) s1 (by intro c; rw [f1 c]; simp [SMap.find])
  have em : viErrors out cams (v :: vs) = .ok m := by
    rw [viErrors, List.foldlM_cons, e1, AprilGrid.ok_bind, e2]
  have hf : ∀ c, SMap.find c m =
      if c ∈ cams then some (Spec.viOfCam out (v :: vs) c) else none := by
    intro c; rw [f2 c]; simp [Spec.viOfCam, viViewOf]
  refine ⟨m, em, s2, hf, fun hc hne => ?_⟩
  have hmem : ∀ ce ∈ m, ce.1 ∈ cams ∧ ce.2 = Spec.viOfCam out (v :: vs) ce.1 := by
    intro ce hce
    have := (SMap.find_eq_some s2).2 hce
    rw [hf] at this
    split_ifs at this with hcc
    exact ⟨hcc, by simpa using this.symm⟩
  obtain ⟨cs, ecs, hcs⟩ := camRows m (fun ce hce => by
    rw [(hmem ce hce).2]; exact hne _ (hmem ce hce).1)
  have hall : m.foldl (fun a ce => a ++ ce.2) [] = m.flatMap Prod.snd := by
    have : ∀ (l : List (Int × List ℝ)) a, l.foldl (fun a ce => a ++ ce.2) a = a ++ l.flatMap Prod.snd := by
      intro l
      induction l with
      | nil => simp
      | cons x l ih => intro a; rw [List.foldl_cons, ih]; simp
    rw [this]; simp
  have hmf : ∀ c ∈ cams, (c, Spec.viOfCam out (v :: vs) c) ∈ m := by
    intro c hcc
    refine (SMap.find_eq_some s2).1 ?_
    rw [hf, if_pos hcc]
  have hn0 : m.flatMap Prod.snd ≠ [] := by
    obtain ⟨c, cs', rfl⟩ := List.exists_cons_of_ne_nil hc
    intro he
    rw [List.flatMap_eq_nil_iff] at he
    exact hne c (by simp) (he _ (hmf c (by simp)))
  obtain ⟨t, et, ht⟩ := row_spec _ hn0
  obtain ⟨s1', _, _⟩ := rows_sum m cs hcs
  have hkeys : cs.map Prod.fst = m.map Prod.fst := rows_keys m cs hcs
  refine ⟨⟨(v :: vs).length, t, cs⟩, ?_, rfl, ht, ?_, ?_, ?_⟩
  · rw [viReport, em]
    simp only [Except.bind, hall, et, ecs]
    rfl
  · intro cr hcr
    have : ∀ (m : List (Int × List ℝ)) (cs : List (Int × Row)),
        List.Forall₂ (fun (ce : Int × List ℝ) (cr : Int × Row) => cr.1 = ce.1 ∧ Spec.IsRow cr.2 ce.2) m cs →
        ∀ cr ∈ cs, ∃ ce ∈ m, cr.1 = ce.1 ∧ Spec.IsRow cr.2 ce.2 := by
      intro m cs hf
      induction hf with
      | nil => intro cr h; cases h
      | cons hd _ ih =>
        intro cr h
        rcases List.mem_cons.1 h with rfl | h
        · exact ⟨_, by simp, hd⟩
        · obtain ⟨ce, hce, hh⟩ := ih cr h
          exact ⟨ce, by simp [hce], hh⟩
    obtain ⟨ce, hce, e3, hr⟩ := this m cs hcs cr hcr
    rw [e3, ← (hmem ce hce).2]
    exact ⟨(hmem ce hce).1, hr⟩
  · intro c hcc
    show c ∈ cs.map Prod.fst
    rw [hkeys]
    exact List.mem_map.2 ⟨_, hmf c hcc, rfl⟩
  · show (cs.map _).sum = t.nbCorners
    rw [s1', ht.1]

/-- C115 refuted: a camera of a visual-inertial calibration that has no residual makes the report
take the median of an empty list. -/
theorem C115_vi_nocorner_refuted (f : R) (r : Vec2) (hf : (out f).2 = some r) :
    viReport out [0, 1] [[(0, [f])]] = .error .oob := by
  obtain ⟨m, em, hs, hm, _⟩ := C115_vi_partial out [0, 1] (by decide) [[(0, [f])]] (by simp)
    (by simp [SMap.Sorted]) (by simp [hf])
  have e0 : viErrors out [0, 1] [[(0, [f])]] = .ok [(0, [Spec.len (out f)]), (1, [])] := by
    have h0 : always (out f) = .ok (Spec.len (out f)) := always_eq (by simp [hf])
    simp [viErrors, viAddCam, viViewErrors, SMap.find, SMap.set, h0, pure, Except.pure, bind,
      Except.bind, Except.map]
  have hr : row 1 [Spec.len (out f)] = .ok
      ⟨1, Num.rmse [Spec.len (out f)], Num.mean [Spec.len (out f)], Spec.len (out f),
        Num.stddev [Spec.len (out f)]⟩ := by
    simp [row, Num.median, Except.map]
  rw [viReport, e0]
  simp only [Except.bind, List.foldl_cons, List.foldl_nil, List.append_nil, List.nil_append,
    List.length_singleton, hr]
  simp [camRow, hr, row_empty, Except.map, bind, Except.bind]

end vi

/-- The identity pose. -/
def idPose : Fin 7 → ℝ := ![0, 0, 0, 0, 0, 0, 1]

theorem idPose_rot : poseRot idPose = 1 := by
  show tfRot (tfParams idPose) = 1
  rw [poseRot_eq]
  unfold idPose
  ext i j
  fin_cases i <;> fin_cases j <;> simp [Quat.toRot]

theorem idPose_trans : poseTrans idPose = 0 := by
  ext i; fin_cases i <;> simp [poseTrans, idPose]

/-- The image point of a fiducial corner. -/
theorem fid_out (c : FidCorner) (pw psn pc : Vec3 ℝ)
    (hpw : pw = euler321 (c.rp 0) (c.rp 1) (quat2euler (tfQuatOf c.T_WF) 2) *ᵥ c.p + tfTrans c.T_WF)
    (hps : psn = (poseRot c.pose)ᵀ *ᵥ (pw - poseTrans c.pose))
    (hpc : pc = (poseRot c.camExt)ᵀ *ᵥ ((poseRot c.imuExt *ᵥ psn + poseTrans c.imuExt) -
      poseTrans c.camExt)) :
    c.out = (if (c.geom.project c.res c.k pc).code ≠ 0 then -1 else 0,
      (c.geom.project c.res c.k pc).zhat.map fun zh => c.z - zh) := by
  have hpt : ∀ y : Fin 7 → ℝ, poseTrans y = tfTrans (tfParams y) := fun y => (poseTrans_eq y).symm
  obtain ⟨q1, q2, q3, q4⟩ := fiducialPoint_eq c.pose c.imuExt c.camExt
    (euler321 (c.rp 0) (c.rp 1) (quat2euler (tfQuatOf c.T_WF) 2)) (tfTrans c.T_WF) c.p
  have hps' : psn = tfPoint (tfInv (tfParams c.pose) *
      tf (euler321 (c.rp 0) (c.rp 1) (quat2euler (tfQuatOf c.T_WF) 2)) (tfTrans c.T_WF)) c.p := by
    rw [q2, hps, hpw, hpt]; rfl
  have e0 : tfPoint (tfInv (tfParams c.camExt) * tfParams c.imuExt * tfInv (tfParams c.pose) *
      fiducialTf c.T_WF c.rp) c.p = pc := by
    simp only [fiducialTf]
    rw [q1, ← q2, ← hps', hpc, hpt, hpt]; rfl
  simp only [FidCorner.out, e0]
  split_ifs <;> rfl

/-- A corner on the optical axis of a camera whose pose, like all the others, is the identity. -/
noncomputable def axisCorner (g : CamGeom) (cx d : ℝ) : FidCorner :=
  ⟨g, ![5, 5], ![1, 1], ![0, 0, d], tf 1 0, ![0, 0], idPose, idPose, idPose,
    ![1, 1, cx, cx, 0, 0, 0, 0]⟩

theorem axisCorner_out (g : CamGeom) (cx d : ℝ) : (axisCorner g cx d).out =
    (if (g.project ![5, 5] ![1, 1, cx, cx, 0, 0, 0, 0] ![0, 0, d]).code ≠ 0 then -1 else 0,
      (g.project ![5, 5] ![1, 1, cx, cx, 0, 0, 0, 0] ![0, 0, d]).zhat.map fun zh => ![1, 1] - zh) := by
  refine fid_out (axisCorner g cx d) ![0, 0, d] ![0, 0, d] ![0, 0, d] ?_ ?_ ?_
  · simp only [axisCorner, tfTrans_tf]
    ext i; fin_cases i <;> simp [euler321, mulVec, dotProduct, Fin.sum_univ_three]
  · simp only [axisCorner, idPose_rot, idPose_trans]; simp
  · simp only [axisCorner, idPose_rot, idPose_trans]; simp

/-- C115 refuted for visual-inertial calibrations: a corner that projects outside the image, whose
residual does not evaluate, is reported with its error and counted among the corners. -/
theorem C115_vi_invalid_refuted : ∃ c : FidCorner, c.geom = radtanGeom ∧ c.out.1 ≠ 0 ∧
    (∃ e, viErrors FidCorner.out [0] [[(0, [c])]] = .ok [(0, [e])]) ∧
    allErrors FidCorner.out [(0, [(0, [c])])] = .ok [] ∧
    ∃ rep, viReport FidCorner.out [0] [[(0, [c])]] = .ok rep ∧ rep.total.nbCorners = 1 := by
  have ho := axisCorner_out radtanGeom 10 1
  obtain ⟨k1, k2, _⟩ := C38_radtan ![5, 5] ![1, 1, 10, 10, 0, 0, 0, 0] ![0, 0, 1]
  obtain ⟨z, hz, _⟩ := k1 (by simp)
  have hc : (radtanGeom.project ![5, 5] ![1, 1, 10, 10, 0, 0, 0, 0] ![0, 0, 1]).code ≠ 0 := by
    intro h
    have := (k2.1 h).2
    simp [Yac.Cam.Spec.Inside, Yac.Cam.Spec.radtanX] at this
    norm_num at this
  rw [if_pos hc, show (radtanGeom.project ![5, 5] ![1, 1, 10, 10, 0, 0, 0, 0] ![0, 0, 1]).zhat =
    some z from hz] at ho
  have h0 : always (axisCorner radtanGeom 10 1).out = .ok (Spec.len (axisCorner radtanGeom 10 1).out) :=
    always_eq (by rw [ho]; simp)
  have he : viErrors FidCorner.out [0] [[(0, [axisCorner radtanGeom 10 1])]] =
      .ok [(0, [Spec.len (axisCorner radtanGeom 10 1).out])] := by
    simp [viErrors, viAddCam, viViewErrors, SMap.find, SMap.set, h0, pure, Except.pure,
      bind, Except.bind, Except.map]
  refine ⟨axisCorner radtanGeom 10 1, rfl, by rw [ho]; norm_num, ⟨_, he⟩, ?_, ?_⟩
  · have hw : Spec.Written (axisCorner radtanGeom 10 1).out := by
      intro h; rw [ho] at h; norm_num at h
    rw [(C115_all FidCorner.out [(0, [(0, [axisCorner radtanGeom 10 1])])] (by simpa using hw)).1]
    simp [Spec.all, Spec.err, ho]
  · obtain ⟨m, hm, _, hf, hr⟩ := C115_vi_partial FidCorner.out [0] (by decide)
      [[(0, [axisCorner radtanGeom 10 1])]] (by simp) (by simp [SMap.Sorted]) (by simp [ho])
    obtain ⟨rep, e, _, ht, _⟩ := hr (by simp) (by simp [Spec.viOfCam])
    rw [he] at hm
    simp only [Except.ok.injEq] at hm
    subst hm
    exact ⟨rep, e, by rw [ht.1]; simp⟩

/-- C115 refuted for visual-inertial calibrations with an equidistant camera: a corner behind the
camera makes the report use a pixel that was never written. -/
theorem C115_vi_unwritten_refuted : ∃ c : FidCorner, c.geom = equiGeom ∧
    viErrors FidCorner.out [0] [[(0, [c])]] = .error .uninit := by
  have ho := axisCorner_out equiGeom 2 (-1)
  have hp : equiGeom.project ![5, 5] ![1, 1, 2, 2, 0, 0, 0, 0] ![0, 0, -1] = ⟨-1, none⟩ :=
    (C38_equi_partial _ _ _).1 (by simp)
  rw [hp] at ho
  refine ⟨axisCorner equiGeom 2 (-1), rfl, ?_⟩
  simp [viErrors, viAddCam, viViewErrors, SMap.find, ho, always, readR, bind,
    Except.bind, Except.map]

/-! ## A witness -/

/-- A corner on the optical axis, measured one pixel to the side of where it projects. -/
noncomputable def goodCorner (dz : ℝ) : Corner :=
  ⟨radtanGeom, ![5, 5], ![2 + dz, 2], ![0, 0, 1], idPose, idPose, ![1, 1, 2, 2, 0, 0, 0, 0]⟩

theorem goodCorner_err (dz : ℝ) : Spec.Written (goodCorner dz).out ∧ (goodCorner dz).out.1 = 0 ∧
    Spec.err (goodCorner dz).out = some |dz| := by
  obtain ⟨h1, h2, h3⟩ := C115_residuals.1 (goodCorner dz) (Or.inl rfl)
  have hpc : (poseRot (goodCorner dz).ext)ᵀ *ᵥ ((poseRot (goodCorner dz).pose *ᵥ (goodCorner dz).p +
      poseTrans (goodCorner dz).pose) - poseTrans (goodCorner dz).ext) = ![0, 0, 1] := by
    simp only [goodCorner, idPose_rot, idPose_trans]; simp
  rw [hpc] at h2 h3
  obtain ⟨k1, k2, _⟩ := C38_radtan ![5, 5] ![1, 1, 2, 2, 0, 0, 0, 0] ![0, 0, 1]
  obtain ⟨z, hz, z0, z1⟩ := k1 (by simp)
  have hc : (radtanGeom.project ![5, 5] ![1, 1, 2, 2, 0, 0, 0, 0] ![0, 0, 1]).code = 0 := by
    refine k2.2 ⟨by simp, ?_⟩
    simp [Yac.Cam.Spec.Inside, Yac.Cam.Spec.radtanX, Yac.Cam.Spec.radtanY]
    norm_num
  refine ⟨h1, h2.2 hc, ?_⟩
  rw [h3 z hz hc]
  simp [Yac.Cam.Spec.radtanX, Yac.Cam.Spec.radtanY] at z0 z1
  simp [Spec.dist, goodCorner, z0, z1, Real.sqrt_sq_eq_abs]

/-- The hypotheses of `C115_report_partial` are met by a rig of three cameras, the last of which
saw nothing, with two views. -/
example : ∃ rep, report Corner.out [0, 1, 2] [(10, [(0, [goodCorner 1, goodCorner 3]),
      (1, [goodCorner 2])]), (20, [(0, [goodCorner 5])])] = .ok rep ∧
    rep.nbViews = 2 ∧ rep.total.nbCorners = 4 ∧ (2 : Int) ∉ rep.cams.map Prod.fst := by
  obtain ⟨rep, e, h1, h2, _, h3, _⟩ := C115_report_partial Corner.out [0, 1, 2] (by decide)
    [(10, [(0, [goodCorner 1, goodCorner 3]), (1, [goodCorner 2])]), (20, [(0, [goodCorner 5])])]
    (by
      intro v hv cr hcr
      simp only [List.mem_cons, List.not_mem_nil, or_false] at hv
      rcases hv with rfl | rfl
      · simp only [List.mem_cons, List.not_mem_nil, or_false] at hcr
        rcases hcr with rfl | rfl <;> simp
      · simp only [List.mem_cons, List.not_mem_nil, or_false] at hcr
        subst hcr; simp)
    (by
      intro v hv cr hcr f hf
      have : ∃ d, f = goodCorner d := by
        simp only [List.mem_cons, List.not_mem_nil, or_false] at hv
        rcases hv with rfl | rfl
        · simp only [List.mem_cons, List.not_mem_nil, or_false] at hcr
          rcases hcr with rfl | rfl
          · simp only [List.mem_cons, List.not_mem_nil, or_false] at hf
            rcases hf with rfl | rfl <;> exact ⟨_, rfl⟩
          · simp only [List.mem_cons, List.not_mem_nil, or_false] at hf
            exact ⟨_, hf⟩
        · simp only [List.mem_cons, List.not_mem_nil, or_false] at hcr
          subst hcr
          simp only [List.mem_cons, List.not_mem_nil, or_false] at hf
          exact ⟨_, hf⟩
      obtain ⟨d, rfl⟩ := this
      exact (goodCorner_err d).1)
    (by simp [Spec.count, (goodCorner_err _).2.1])
  refine ⟨rep, e, h1, ?_, ?_⟩
  · rw [h2]; simp [Spec.count, (goodCorner_err _).2.1]
  · rw [h3]; simp [Spec.ofCam]

/-- The hypothesis of `C115_vi_nocorner_refuted` is met. -/
example : ∃ (c : Corner) (r : Vec2), c.out.2 = some r :=
  ⟨goodCorner 1, (goodCorner_err 1).1 (goodCorner_err 1).2.1⟩

end Yac.Metrics
