import Verif.Metrics.Props

/-!
# C115: the printed metrics, the three kinds of residuals, and the visual-inertial report
-/

namespace Yac.Metrics
open Matrix Yac.Geom Yac.Cam Yac.Residual

/-! ## Specification -/

namespace Spec

/-- The numbers printed for a sample `l` of errors: its size, root mean square, mean, median and
(for two or more errors) standard deviation. -/
def IsRow (r : Row) (l : List ℝ) : Prop :=
  r.nbCorners = l.length ∧
  (∃ e, r.rmse = some e ∧ 0 ≤ e ∧ e ^ 2 * (l.length : ℝ) = (l.map fun a => a ^ 2).sum) ∧
  (∃ m, r.mean = some m ∧ m * (l.length : ℝ) = l.sum ∧
    (2 ≤ l.length → ∃ d, r.stddev = some d ∧ 0 ≤ d ∧
      d ^ 2 * ((l.length : ℝ) - 1) = (l.map fun a => (a - m) ^ 2).sum)) ∧
  (l.length % 2 = 1 → Num.IsRank l (l.length / 2) r.median) ∧
  (l.length % 2 = 0 → ∃ lo hi, Num.IsRank l (l.length / 2 - 1) lo ∧
    Num.IsRank l (l.length / 2) hi ∧ r.median = (lo + hi) / 2)

end Spec

theorem row_spec (l : List ℝ) (h : l ≠ []) : ∃ r, row l.length l = .ok r ∧ Spec.IsRow r l := by
  obtain ⟨md, e1, h1, h2⟩ := Num.C29_median l h
  obtain ⟨e, e2, h3, h4, _⟩ := (Num.C29_stddev_rmse l).2.1 h
  obtain ⟨m, e3, h5, _⟩ := Num.C29_mean l h
  refine ⟨⟨l.length, Num.rmse l, Num.mean l, md, Num.stddev l⟩, by rw [row, e1]; rfl, rfl,
    ⟨e, e2, h3, h4⟩, ⟨m, e3, h5, fun hl => ?_⟩, h1, h2⟩
  obtain ⟨m', s, e4, e5, h6, _⟩ := Num.C29_var l hl
  have hm : m' = m := by rw [e3] at e4; simpa using e4.symm
  subst hm
  obtain ⟨d, e6, h7, h8⟩ := (Num.C29_stddev_rmse l).1 s e5 hl
  exact ⟨d, e6, h7, by rw [h8, h6]⟩

theorem row_empty (n : Nat) : row n [] = .error .oob := rfl

theorem camRows (m : List (Int × List ℝ)) (h : ∀ ce ∈ m, ce.2 ≠ []) :
    ∃ cs, m.mapM camRow = .ok cs ∧
      List.Forall₂ (fun ce cr => cr.1 = ce.1 ∧ Spec.IsRow cr.2 ce.2) m cs := by
  induction m with
  | nil => exact ⟨[], rfl, List.Forall₂.nil⟩
  | cons ce m ih =>
    obtain ⟨cs, e, hf⟩ := ih (fun x hx => h x (by simp [hx]))
    obtain ⟨r, er, hr⟩ := row_spec ce.2 (h ce (by simp))
    refine ⟨(ce.1, r) :: cs, ?_, hf.cons ⟨rfl, hr⟩⟩
    have h1 : camRow ce = .ok (ce.1, r) := by rw [camRow, er]; rfl
    rw [List.mapM_cons, h1, AprilGrid.ok_bind, e]
    rfl

theorem foldl_len (m : List (Int × List ℝ)) (n : Nat) :
    m.foldl (fun n ce => n + ce.2.length) n = n + (m.flatMap Prod.snd).length := by
  induction m generalizing n with
  | nil => simp
  | cons a m ih => rw [List.foldl_cons, ih]; simp; omega

section camera
variable {R : Type} (out : R → Out)

theorem errors_perm (cams : List Int) (hn : cams.Nodup)
    (views : List (Int × List (Int × List R)))
    (hc : ∀ v ∈ views, ∀ cr ∈ v.2, cr.1 ∈ cams) (m : List (Int × List ℝ)) (hs : SMap.Sorted m)
    (h1 : ∀ c, (∃ l, SMap.find c m = some l) ↔ c ∈ cams ∧ Spec.ofCam out views c ≠ [])
    (h2 : ∀ c l, SMap.find c m = some l → l = Spec.ofCam out views c) :
    (m.flatMap Prod.snd).Perm (Spec.all out views) := by
  classical
  have ha : Spec.all out views = (views.flatMap Prod.snd).flatMap
      (fun cr => cr.2.filterMap fun f => Spec.err (out f)) := by
    unfold Spec.all; rw [List.flatMap_assoc]
  have ho : ∀ c, Spec.ofCam out views c = ((views.flatMap Prod.snd).filter
      (fun cr => decide (cr.1 = c))).flatMap (fun cr => cr.2.filterMap fun f => Spec.err (out f)) := by
    intro c
    unfold Spec.ofCam
    rw [List.filter_flatMap, List.flatMap_assoc]
  have hp := cams_perm (fun cr : Int × List R => cr.2.filterMap fun f => Spec.err (out f))
    Prod.fst cams hn (views.flatMap Prod.snd) (by
      intro cr hcr
      rw [List.mem_flatMap] at hcr
      obtain ⟨v, hv, hcr⟩ := hcr
      exact hc v hv cr hcr)
  rw [ha]
  refine List.Perm.trans ?_ hp.symm
  have e1 : m.flatMap Prod.snd = (m.map Prod.fst).flatMap (Spec.ofCam out views) := by
    rw [List.flatMap_map]
    refine List.flatMap_congr fun ce hce => ?_
    exact h2 ce.1 ce.2 ((SMap.find_eq_some hs).2 hce)
  have e2 : ∀ cs : List Int, cs.flatMap (Spec.ofCam out views) =
      (cs.filter fun c => decide (Spec.ofCam out views c ≠ [])).flatMap (Spec.ofCam out views) := by
    intro cs
    induction cs with
    | nil => rfl
    | cons c cs ih =>
      by_cases hz : Spec.ofCam out views c = []
      · simp [hz, ih]
      · simp [hz, ih]
  have e3 : (cams.flatMap fun c => ((views.flatMap Prod.snd).filter
      fun a => decide (a.1 = c)).flatMap fun cr => cr.2.filterMap fun f => Spec.err (out f)) =
      cams.flatMap (Spec.ofCam out views) := List.flatMap_congr fun c _ => (ho c).symm
  rw [e3, e1, e2 cams]
  refine List.Perm.flatMap_right _ ?_
  have n1 : (m.map Prod.fst).Nodup := by
    have := hs
    unfold SMap.Sorted at this
    rw [List.Nodup, List.pairwise_map]
    exact this.imp (fun h => ne_of_lt h)
  rw [List.perm_ext_iff_of_nodup n1 (hn.filter _)]
  intro c
  rw [List.mem_filter]
  have := h1 c
  rw [show c ∈ m.map Prod.fst ↔ ∃ l, SMap.find c m = some l by
    constructor
    · intro h
      rw [List.mem_map] at h
      obtain ⟨ce, hce, rfl⟩ := h
      exact ⟨ce.2, (SMap.find_eq_some hs).2 hce⟩
    · rintro ⟨l, hl⟩
      exact List.mem_map.2 ⟨(c, l), (SMap.find_eq_some hs).1 hl, rfl⟩, this]
  simp

theorem rows_sum (m : List (Int × List ℝ)) (cs : List (Int × Row))
    (h : List.Forall₂ (fun (ce : Int × List ℝ) (cr : Int × Row) => cr.1 = ce.1 ∧ Spec.IsRow cr.2 ce.2) m cs) :
    (cs.map fun cr => cr.2.nbCorners).sum = (m.flatMap Prod.snd).length ∧
    (cs.map fun cr => (cr.2.nbCorners : ℝ) * cr.2.rmse.getD 0 ^ 2).sum =
      ((m.flatMap Prod.snd).map fun a => a ^ 2).sum ∧
    (cs.map fun cr => (cr.2.nbCorners : ℝ) * cr.2.mean.getD 0).sum = (m.flatMap Prod.snd).sum := by
  induction h with
  | nil => simp
  | @cons ce cr m cs hd _ ih =>
    obtain ⟨_, h1, ⟨e, e2, _, h2⟩, ⟨mu, e3, h3, _⟩, _⟩ := hd
    obtain ⟨i1, i2, i3⟩ := ih
    refine ⟨?_, ?_, ?_⟩
    · rw [List.map_cons, List.sum_cons, i1, h1]; simp
    · rw [List.map_cons, List.sum_cons, i2, h1, e2, List.flatMap_cons, List.map_append,
        List.sum_append, ← h2]
      simp [mul_comm]
    · rw [List.map_cons, List.sum_cons, i3, h1, e3, List.flatMap_cons, List.sum_append, ← h3]
      simp [mul_comm]

/-- C115, metrics: as soon as one residual evaluates, the report of a camera calibration gives the
number of views, the number of residuals that evaluate and the statistics of their errors; it has
one block for every camera with such a residual, holding the statistics of that camera's errors;
and the blocks of the cameras add up to the total. -/
theorem C115_report_partial (cams : List Int) (hn : cams.Nodup)
    (views : List (Int × List (Int × List R)))
    (hc : ∀ v ∈ views, ∀ cr ∈ v.2, cr.1 ∈ cams)
    (h : ∀ v ∈ views, ∀ cr ∈ v.2, ∀ f ∈ cr.2, Spec.Written (out f))
    (hsome : Spec.count out views ≠ 0) :
    ∃ rep, report out cams views = .ok rep ∧ rep.nbViews = views.length ∧
      rep.total.nbCorners = Spec.count out views ∧
      Spec.IsRow rep.total (Spec.all out views) ∧
      (∀ c, c ∈ rep.cams.map Prod.fst ↔ c ∈ cams ∧ Spec.ofCam out views c ≠ []) ∧
      (rep.cams.map Prod.fst).Pairwise (· < ·) ∧
      (∀ cr ∈ rep.cams, Spec.IsRow cr.2 (Spec.ofCam out views cr.1)) ∧
      (rep.cams.map fun cr => cr.2.nbCorners).sum = rep.total.nbCorners ∧
      (rep.cams.map fun cr => (cr.2.nbCorners : ℝ) * cr.2.rmse.getD 0 ^ 2).sum =
        rep.total.nbCorners * rep.total.rmse.getD 0 ^ 2 ∧
      (rep.cams.map fun cr => (cr.2.nbCorners : ℝ) * cr.2.mean.getD 0).sum =
        rep.total.nbCorners * rep.total.mean.getD 0 := by
  obtain ⟨ha, hl⟩ := C115_all out views h
  obtain ⟨m, em, hs, hne, h1, h2⟩ := C115_cameras out cams hn views h
  have hp := errors_perm out cams hn views hc m hs h1 h2
  have hall : Spec.all out views ≠ [] := by
    intro he; rw [he] at hl; exact hsome hl.symm
  obtain ⟨t, et, ht⟩ := row_spec _ hall
  have hmem : ∀ ce ∈ m, SMap.find ce.1 m = some ce.2 := fun ce hce => (SMap.find_eq_some hs).2 hce
  obtain ⟨cs, ecs, hcs⟩ := camRows m (fun ce hce => hne ce.1 ce.2 (hmem ce hce))
  have hrep : report out cams views = .ok ⟨views.length, t, cs⟩ := by
    rw [report, em, Except.bind, ha]
    show printMetrics views.length m (Spec.all out views) = _
    rw [printMetrics, foldl_len, Nat.zero_add, hp.length_eq, et, Except.bind, ecs]
    rfl
  have hkeys : cs.map Prod.fst = m.map Prod.fst := by
    clear em hs hne h1 h2 hp hmem ecs hrep
    induction hcs with
    | nil => rfl
    | cons hd _ ih => rw [List.map_cons, List.map_cons, hd.1, ih]
  obtain ⟨s1, s2, s3⟩ := rows_sum m cs hcs
  have htn := ht.1
  refine ⟨_, hrep, rfl, htn.trans hl, ht, ?_, ?_, ?_, ?_, ?_, ?_⟩
  · intro c
    show c ∈ cs.map Prod.fst ↔ _
    rw [hkeys, ← h1 c]
    constructor
    · intro hcm
      obtain ⟨ce, hce, rfl⟩ := List.mem_map.1 hcm
      exact ⟨ce.2, hmem ce hce⟩
    · rintro ⟨l, hl⟩
      exact List.mem_map.2 ⟨(c, l), (SMap.find_eq_some hs).1 hl, rfl⟩
  · show (cs.map Prod.fst).Pairwise (· < ·)
    rw [hkeys, List.pairwise_map]
    exact hs
  · intro cr hcr
    have : ∀ (m : List (Int × List ℝ)) (cs : List (Int × Row)),
        List.Forall₂ (fun (ce : Int × List ℝ) (cr : Int × Row) => cr.1 = ce.1 ∧ Spec.IsRow cr.2 ce.2) m cs →
        ∀ cr ∈ cs, ∃ ce ∈ m, cr.1 = ce.1 ∧ Spec.IsRow cr.2 ce.2 := by
      intro m cs hf
      induction hf with
      | nil => intro cr h; cases h
      | cons hd _ ih =>
        intro cr h
        rcases List.mem_cons.1 h with rfl | h
        · exact ⟨_, by simp, hd⟩
        · obtain ⟨ce, hce, hh⟩ := ih cr h
          exact ⟨ce, by simp [hce], hh⟩
    obtain ⟨ce, hce, e1, hr⟩ := this m cs hcs cr hcr
    rw [e1, ← h2 ce.1 ce.2 (hmem ce hce)]
    exact hr
  · show (cs.map _).sum = t.nbCorners
    rw [s1, hp.length_eq, htn]
  · show (cs.map _).sum = (t.nbCorners : ℝ) * t.rmse.getD 0 ^ 2
    obtain ⟨e, e2, _, h5⟩ := ht.2.1
    rw [s2, (hp.map _).sum_eq, ← h5, htn, e2]
    simp [mul_comm]
  · show (cs.map _).sum = (t.nbCorners : ℝ) * t.mean.getD 0
    obtain ⟨e, e2, h5, _⟩ := ht.2.2.1
    rw [s3, hp.sum_eq, ← h5, htn, e2]
    simp [mul_comm]

/-- C115 refuted: with no residual that evaluates (for instance before any view is added) the
report takes the median of an empty list and reads out of bounds. -/
theorem C115_empty_refuted (cams : List Int) (hn : cams.Nodup)
    (views : List (Int × List (Int × List R)))
    (h : ∀ v ∈ views, ∀ cr ∈ v.2, ∀ f ∈ cr.2, Spec.Written (out f))
    (hz : Spec.count out views = 0) : report out cams views = .error .oob := by
  obtain ⟨ha, hl⟩ := C115_all out views h
  obtain ⟨m, em, _⟩ := C115_cameras out cams hn views h
  rw [hz, List.length_eq_zero_iff] at hl
  rw [report, em, Except.bind, ha, hl]
  rfl

end camera

/-- C115, motion capture: the query reports the errors of exactly the residuals that evaluate, in
the order of the views. -/
theorem C115_mocap {R : Type} (out : R → Out) (views : List (Int × List R))
    (h : ∀ v ∈ views, ∀ f ∈ v.2, Spec.Written (out f)) :
    mocapErrors out views =
      .ok (views.flatMap fun v => v.2.filterMap fun f => Spec.err (out f)) := by
  have hpush : ∀ (es acc : List ℝ), es.foldl (fun a e => a ++ [e]) acc = acc ++ es := by
    intro es
    induction es with
    | nil => simp
    | cons e es ih => intro acc; rw [List.foldl_cons, ih]; simp
  have key : ∀ vs : List (Int × List R), (∀ v ∈ vs, ∀ f ∈ v.2, Spec.Written (out f)) → ∀ acc,
      vs.foldlM (fun acc v => (v.2.foldlM (pushValid out) []).map
        (fun es => es.foldl (fun a e => a ++ [e]) acc)) acc =
      .ok (acc ++ vs.flatMap fun v => v.2.filterMap fun f => Spec.err (out f)) := by
    intro vs
    induction vs with
    | nil => intro _ acc; simp [pure, Except.pure]
    | cons v vs ih =>
      intro hv acc
      have h1 : (v.2.foldlM (pushValid out) []).map (fun es => es.foldl (fun a e => a ++ [e]) acc) =
          .ok (acc ++ v.2.filterMap fun f => Spec.err (out f)) := by
        rw [push_fold out v.2 (hv v (by simp)), ok_map, hpush]; simp
      rw [List.foldlM_cons, h1, AprilGrid.ok_bind, ih (fun w hw => hv w (by simp [hw]))]
      simp
  exact (key views h []).trans (by simp)

/-! ## What a residual evaluates to -/

/-- The two camera models write the pixel whenever they report success. -/
theorem radtan_written (res : Fin 2 → ℤ) (k : Params) (p : Vec3 ℝ)
    (h : (radtanGeom.project res k p).code = 0) : ∃ z, (radtanGeom.project res k p).zhat = some z := by
  simp only [radtanGeom] at h ⊢
  unfold radtanProject at h ⊢
  cases hp : projectPoint p with
  | none => rw [hp] at h; simp at h
  | some x => exact ⟨_, rfl⟩

theorem equi_written (res : Fin 2 → ℤ) (k : Params) (p : Vec3 ℝ)
    (h : (equiGeom.project res k p).code = 0) : ∃ z, (equiGeom.project res k p).zhat = some z := by
  simp only [equiGeom] at h ⊢
  unfold equiProject at h ⊢
  by_cases hz : p 2 < 0
  · rw [if_pos hz] at h; simp at h
  · rw [if_neg hz] at h ⊢
    cases hp : projectPoint p with
    | none => rw [hp] at h; simp at h
    | some x => exact ⟨_, rfl⟩

/-- The residual of a corner for the projection `pr` of its image point: the pixel distance of
the measurement if the projection succeeds, no error otherwise. -/
def IsCornerErr (o : Out) (z : Vec2) (pr : ProjRes) : Prop :=
  Spec.Written o ∧ (o.1 = 0 ↔ pr.code = 0) ∧
  ∀ zh, pr.zhat = some zh → pr.code = 0 → Spec.err o = some (Spec.dist z zh)

theorem cornerErr {g : CamGeom} (hg : g = radtanGeom ∨ g = equiGeom) (res : Fin 2 → ℤ) (k : Params)
    (pc : Vec3 ℝ) (z : Vec2) (o : Out)
    (h0 : (g.project res k pc).code = 0 → o = (0, (g.project res k pc).zhat.map fun zh => z - zh))
    (h1 : (g.project res k pc).code ≠ 0 → o.1 = -1) : IsCornerErr o z (g.project res k pc) := by
  have hcode : o.1 = 0 ↔ (g.project res k pc).code = 0 := by
    constructor
    · intro h
      by_contra hc
      rw [h1 hc] at h; norm_num at h
    · intro h; rw [h0 h]
  refine ⟨fun h => ?_, hcode, fun zh hz hc => ?_⟩
  · have hc := hcode.1 h
    have : ∃ z, (g.project res k pc).zhat = some z := by
      rcases hg with rfl | rfl
      · exact radtan_written _ _ _ hc
      · exact equi_written _ _ _ hc
    obtain ⟨zh, hz⟩ := this
    exact ⟨z - zh, by rw [h0 hc, hz]; rfl⟩
  · rw [h0 hc, hz]
    simp [Spec.err, Spec.dist]

/-- C115, residuals: each kind of residual reports, exactly when its corner projects into the
image, the distance between the measurement and the image of the corner under the current
parameters. -/
theorem C115_residuals :
    (∀ c : Corner, (c.geom = radtanGeom ∨ c.geom = equiGeom) →
      IsCornerErr c.out c.z (c.geom.project c.res c.k
        ((poseRot c.ext)ᵀ *ᵥ ((poseRot c.pose *ᵥ c.p + poseTrans c.pose) - poseTrans c.ext)))) ∧
    (∀ c : FidCorner, (c.geom = radtanGeom ∨ c.geom = equiGeom) →
      ∀ pw psn : Vec3 ℝ,
        pw = euler321 (c.rp 0) (c.rp 1) (quat2euler (tfQuatOf c.T_WF) 2) *ᵥ c.p + tfTrans c.T_WF →
        psn = (poseRot c.pose)ᵀ *ᵥ (pw - poseTrans c.pose) →
      IsCornerErr c.out c.z (c.geom.project c.res c.k
        ((poseRot c.camExt)ᵀ *ᵥ ((poseRot c.imuExt *ᵥ psn + poseTrans c.imuExt) -
          poseTrans c.camExt)))) ∧
    (∀ c : MocapCorner, (c.geom = radtanGeom ∨ c.geom = equiGeom) →
      UnitPose c.pose → UnitPose c.ext → ∀ pm : Vec3 ℝ,
        pm = (poseRot c.pose)ᵀ *ᵥ ((poseRot c.fid *ᵥ c.p + poseTrans c.fid) - poseTrans c.pose) →
      IsCornerErr c.out c.z (c.geom.project c.res c.k
        ((poseRot c.ext)ᵀ *ᵥ (pm - poseTrans c.ext)))) := by
  have hpt : ∀ y : Fin 7 → ℝ, poseTrans y = tfTrans (tfParams y) := fun y => (poseTrans_eq y).symm
  refine ⟨fun c hg => ?_, fun c hg pw psn hpw hps => ?_, fun c hg hm hc pm hpm => ?_⟩
  · have e0 : tfPoint (tfInv (tfParams c.ext) * tfParams c.pose) c.p =
        (poseRot c.ext)ᵀ *ᵥ ((poseRot c.pose *ᵥ c.p + poseTrans c.pose) - poseTrans c.ext) := by
      rw [reprojPoint_eq, hpt, hpt]; rfl
    refine cornerErr hg _ _ _ _ _ (fun h => ?_) (fun h => ?_)
    · simp only [Corner.out, reprojResidual, e0]
      rw [if_neg (by simp [h])]
    · simp only [Corner.out, reprojResidual, e0]
      rw [if_pos h]
  · obtain ⟨q1, q2, q3, q4⟩ := fiducialPoint_eq c.pose c.imuExt c.camExt
      (euler321 (c.rp 0) (c.rp 1) (quat2euler (tfQuatOf c.T_WF) 2)) (tfTrans c.T_WF) c.p
    have hps' : psn = tfPoint (tfInv (tfParams c.pose) *
        tf (euler321 (c.rp 0) (c.rp 1) (quat2euler (tfQuatOf c.T_WF) 2)) (tfTrans c.T_WF)) c.p := by
      rw [q2, hps, hpw, hpt]; rfl
    have e0 : tfPoint (tfInv (tfParams c.camExt) * tfParams c.imuExt * tfInv (tfParams c.pose) *
        fiducialTf c.T_WF c.rp) c.p =
        (poseRot c.camExt)ᵀ *ᵥ ((poseRot c.imuExt *ᵥ psn + poseTrans c.imuExt) -
          poseTrans c.camExt) := by
      simp only [fiducialTf]
      rw [q1, ← q2, ← hps', hpt, hpt]; rfl
    refine cornerErr hg _ _ _ _ _ (fun h => ?_) (fun h => ?_)
    · simp only [FidCorner.out, e0]
      rw [if_neg (by simp [h])]
    · simp only [FidCorner.out, e0]
      rw [if_pos h]
  · have hRm := unit_rot hm
    have hRc := unit_rot hc
    have dm0 : (tfRot (tfParams c.pose)).det ≠ 0 := by rw [hRm.2]; norm_num
    have dc0 : (tfRot (tfParams c.ext)).det ≠ 0 := by rw [hRc.2]; norm_num
    obtain ⟨q1, q2, q3⟩ := mocapPoint_eq c.fid c.pose c.ext c.p dm0 dc0
    have hpm' : tfPoint ((tfParams c.pose)⁻¹ * tfParams c.fid) c.p = pm := by
      rw [q2, hpm, isRot_inv hRm, hpt, hpt]; rfl
    have e0 : tfPoint ((tfParams c.ext)⁻¹ * (tfParams c.pose)⁻¹ * tfParams c.fid) c.p =
        (poseRot c.ext)ᵀ *ᵥ (pm - poseTrans c.ext) := by
      rw [q1, ← q2, hpm', isRot_inv hRc, hpt]; rfl
    refine cornerErr hg _ _ _ _ _ (fun h => ?_) (fun h => ?_)
    · simp only [MocapCorner.out, e0]
      rw [if_neg (by simp [h])]
    · simp only [MocapCorner.out, e0]
      rw [if_pos h]

end Yac.Metrics
