import Verif.VI.Model
import Verif.Solver.BookLemmas
import Verif.AprilGrid.Lemmas

/-!
# The state invariant of the visual-inertial calibrator
-/

namespace Yac.VI

open Yac.AprilGrid (Grid)
open Yac.Solver (Problem insSet mem_insSet nodup_insSet)

variable {K D : Type} [DecidableEq K]

theorem bindOk {α β : Type} {x : Except Fault α} {f : α → Except Fault β} {b : β}
    (h : (x >>= f) = .ok b) : ∃ a, x = .ok a ∧ f a = .ok b := by
  cases x with
  | error e => simp [bind, Except.bind] at h
  | ok a => exact ⟨a, rfl, h⟩

/-- The number a residual was created with. -/
def Res.num : Res K → Nat
  | .fid r => r.id
  | .imu r => r.id
  | .marg n _ => n

/-- What holds of every `ceres::Problem`. -/
structure PInv (p : Problem Par (Res K)) : Prop where
  ids : (p.rblocks.map Prod.fst).Nodup
  lt : ∀ b ∈ p.rblocks, b.1 < p.next
  res : (p.rblocks.map Prod.snd).Nodup
  pb : p.pblocks.Nodup
  closed : ∀ b ∈ p.rblocks, ∀ q ∈ b.2.blocks, q ∈ p.pblocks

theorem PInv.addParam {p : Problem Par (Res K)} (h : PInv p) (q : Par) : PInv (addParam p q) where
  ids := h.ids
  lt := h.lt
  res := h.res
  pb := nodup_insSet _ _ h.pb
  closed := fun b hb x hx => (mem_insSet _ _ _).2 (Or.inr (h.closed b hb x hx))

theorem mem_addParam (p : Problem Par (Res K)) (q x : Par) :
    x ∈ (addParam p q).pblocks ↔ x = q ∨ x ∈ p.pblocks := mem_insSet _ _ _

theorem addParam_rblocks (p : Problem Par (Res K)) (q : Par) :
    (addParam p q).rblocks = p.rblocks := rfl

theorem mem_foldl_insSet (bs l : List Par) (x : Par) :
    x ∈ bs.foldl (fun l q => insSet q l) l ↔ x ∈ bs ∨ x ∈ l := by
  induction bs generalizing l with
  | nil => simp
  | cons b bs ih => rw [List.foldl_cons, ih, mem_insSet, List.mem_cons]; tauto

theorem nodup_foldl_insSet (bs l : List Par) (h : l.Nodup) :
    (bs.foldl (fun l q => insSet q l) l).Nodup := by
  induction bs generalizing l with
  | nil => exact h
  | cons b bs ih => exact ih _ (nodup_insSet _ _ h)

theorem addResidual_ok {p : Problem Par (Res K)} {r : Res K} {out : Nat × Problem Par (Res K)}
    (h : addResidual p r = .ok out) :
    r.blocks.Nodup ∧ out.1 = p.next ∧ out.2.rblocks = p.rblocks ++ [(p.next, r)] ∧
      out.2.next = p.next + 1 ∧
      out.2.pblocks = r.blocks.foldl (fun l q => insSet q l) p.pblocks := by
  unfold addResidual at h
  split_ifs at h with hd
  injection h with h
  subst h
  exact ⟨hd, rfl, rfl, rfl, rfl⟩

theorem PInv.addResidual {p : Problem Par (Res K)} (hp : PInv p) {r : Res K}
    {out : Nat × Problem Par (Res K)} (h : addResidual p r = .ok out)
    (hr : r ∉ p.rblocks.map Prod.snd) : PInv out.2 := by
  obtain ⟨-, h1, h2, h3, h4⟩ := addResidual_ok h
  refine ⟨?_, ?_, ?_, ?_, ?_⟩
  · rw [h2, List.map_append, List.nodup_append]
    refine ⟨hp.ids, by simp, ?_⟩
    intro a ha b hb
    simp only [List.map_cons, List.map_nil, List.mem_singleton] at hb
    obtain ⟨x, hx, rfl⟩ := List.mem_map.1 ha
    have := hp.lt x hx
    omega
  · intro b hb
    rw [h2, List.mem_append] at hb
    rw [h3]
    rcases hb with hb | hb
    · have := hp.lt b hb; omega
    · simp only [List.mem_singleton] at hb
      subst hb
      simp
  · rw [h2, List.map_append, List.nodup_append]
    refine ⟨hp.res, by simp, ?_⟩
    intro a ha b hb
    simp only [List.map_cons, List.map_nil, List.mem_singleton] at hb
    rintro rfl
    exact hr (hb ▸ ha)
  · rw [h4]; exact nodup_foldl_insSet _ _ hp.pb
  · intro b hb q hq
    rw [h4, mem_foldl_insSet]
    rw [h2, List.mem_append] at hb
    rcases hb with hb | hb
    · exact Or.inr (hp.closed b hb q hq)
    · simp only [List.mem_singleton] at hb
      subst hb
      exact Or.inl hq

theorem PInv.filter {p : Problem Par (Res K)} (hp : PInv p) (f : Nat × Res K → Bool) (l : List Par)
    (hl : l.Nodup) (hc : ∀ b ∈ p.rblocks, f b = true → ∀ q ∈ b.2.blocks, q ∈ l) :
    PInv (⟨l, p.rblocks.filter f, p.next⟩ : Problem Par (Res K)) where
  ids := (List.filter_sublist.map _).nodup hp.ids
  lt := fun b hb => hp.lt b (List.mem_filter.1 hb).1
  res := (List.filter_sublist.map _).nodup hp.res
  pb := hl
  closed := fun b hb => hc b (List.mem_filter.1 hb).1 (List.mem_filter.1 hb).2

theorem PInv.removeResidual {p p' : Problem Par (Res K)} (hp : PInv p) {id : Nat}
    (h : removeResidual p id = .ok p') :
    PInv p' ∧ p'.pblocks = p.pblocks ∧ ∀ b, b ∈ p'.rblocks ↔ b ∈ p.rblocks ∧ b.1 ≠ id := by
  unfold VI.removeResidual at h
  split_ifs at h with hm
  injection h with h
  subst h
  refine ⟨hp.filter _ _ hp.pb (fun b hb _ => hp.closed b hb), rfl, ?_⟩
  intro b
  simp

theorem PInv.dropParam {p : Problem Par (Res K)} (hp : PInv p) (q : Par) :
    PInv (dropParam p q) ∧ (∀ b, b ∈ (dropParam p q).rblocks ↔ b ∈ p.rblocks ∧ q ∉ b.2.blocks) ∧
      (∀ x, x ∈ (VI.dropParam p q).pblocks ↔ x ∈ p.pblocks ∧ x ≠ q) := by
  unfold VI.dropParam
  split_ifs with hm
  · refine ⟨hp.filter _ _ (hp.pb.erase _) ?_, ?_, ?_⟩
    · intro b hb hf x hx
      rw [List.Nodup.mem_erase_iff hp.pb]
      refine ⟨?_, hp.closed b hb x hx⟩
      rintro rfl
      simp only [decide_eq_true_eq] at hf
      exact hf hx
    · intro b; simp
    · intro x
      rw [List.Nodup.mem_erase_iff hp.pb]
      tauto
  · refine ⟨hp, ?_, ?_⟩
    · intro b
      refine ⟨fun hb => ⟨hb, fun hq => hm (hp.closed b hb q hq)⟩, fun hb => hb.1⟩
    · intro x
      refine ⟨fun hx => ⟨hx, ?_⟩, fun hx => hx.1⟩
      rintro rfl
      exact hm hx

theorem PInv.dropParams {p : Problem Par (Res K)} (hp : PInv p) (l : List Par) :
    PInv (l.foldl VI.dropParam p) ∧
      (∀ b, b ∈ (l.foldl VI.dropParam p).rblocks ↔ b ∈ p.rblocks ∧ ∀ q ∈ l, q ∉ b.2.blocks) ∧
      (∀ x, x ∈ (l.foldl VI.dropParam p).pblocks ↔ x ∈ p.pblocks ∧ x ∉ l) := by
  induction l generalizing p with
  | nil => simp [hp]
  | cons q l ih =>
    obtain ⟨h1, h2, h3⟩ := hp.dropParam q
    obtain ⟨i1, i2, i3⟩ := ih h1
    refine ⟨i1, ?_, ?_⟩
    · intro b
      rw [List.foldl_cons, i2, h2]
      simp only [List.forall_mem_cons]
      tauto
    · intro x
      rw [List.foldl_cons, i3, h3, List.mem_cons]
      tauto

theorem mem_snd {p : Problem Par (Res K)} {r : Res K} :
    r ∈ p.rblocks.map Prod.snd ↔ ∃ id, (id, r) ∈ p.rblocks := by
  simp

/-! ### The specification of a state -/

/-- The residuals a view contributes. -/
def View.residuals (v : View K) : List (Res K) := v.fids.map Res.fid ++ v.imu.toList.map Res.imu

/-- Each view but the last is joined to its successor by one IMU factor. -/
def Linked : List (View K) → Prop
  | [] => True
  | [v] => v.imu = none
  | v :: w :: l => (∃ n, v.imu = some ⟨n, v.num, w.num⟩) ∧ v.num < w.num ∧ Linked (w :: l)

/-- The prior speaks of the oldest view and of no other view's pose or speed. -/
def PriorOk (views : List (View K)) (r : Res K) : Prop :=
  ∃ n ps v rest, r = .marg n ps ∧ views = v :: rest ∧ ps.Nodup ∧ .pose v.num ∈ ps ∧
    (∀ k, .pose k ∈ ps → k = v.num) ∧ (∀ k, .sb k ∈ ps → k = v.num) ∧ .delay ∉ ps

/-- The invariant. -/
structure WF (s : St K D) : Prop where
  prob : PInv s.prob
  freshR : ∀ b ∈ s.prob.rblocks, b.2.num < s.next
  freshV : ∀ v ∈ s.views, v.num < s.next
  linked : Linked s.views
  fids : ∀ v ∈ s.views, ∀ f ∈ v.fids, f.view = v.num ∧ (SMap.find f.cam s.cams).isSome
  content : ∀ r, r ∈ s.prob.rblocks.map Prod.snd ↔
    (∃ v ∈ s.views, r ∈ v.residuals) ∨ ∃ id, s.marg = some (id, r)
  marg : ∀ id r, s.marg = some (id, r) → (id, r) ∈ s.prob.rblocks ∧ PriorOk s.views r
  pImuExt : .imuExt ∈ s.prob.pblocks
  pDelay : .delay ∈ s.prob.pblocks
  pFid : .fiducial ∈ s.prob.pblocks ↔ s.fiducial = true
  pExt : ∀ i, .ext i ∈ s.prob.pblocks ↔ (SMap.find i s.cams).isSome
  pCam : ∀ i, .cam i ∈ s.prob.pblocks → (SMap.find i s.cams).isSome
  pPose : ∀ k, .pose k ∈ s.prob.pblocks ↔ ∃ v ∈ s.views, v.num = k
  pSb : ∀ k, .sb k ∈ s.prob.pblocks ↔ ∃ v ∈ s.views, v.num = k
  init : s.initialized = true ↔ s.views ≠ []
  fidOk : s.initialized = true → s.fiducial = true

theorem Linked.head_lt {v : View K} {l : List (View K)} (h : Linked (v :: l)) :
    ∀ w ∈ l, v.num < w.num := by
  induction l generalizing v with
  | nil => simp
  | cons x l ih =>
    obtain ⟨-, h2, h3⟩ := h
    intro w hw
    rcases List.mem_cons.1 hw with rfl | hw
    · exact h2
    · exact lt_trans h2 (ih h3 w hw)

theorem Linked.tail {v : View K} {l : List (View K)} (h : Linked (v :: l)) : Linked l := by
  cases l with
  | nil => trivial
  | cons w l => exact h.2.2

theorem Linked.imu_lt {l : List (View K)} (h : Linked l) :
    ∀ v ∈ l, ∀ r, v.imu = some r → r.i = v.num ∧ v.num < r.j ∧ ∃ w ∈ l, w.num = r.j := by
  induction l with
  | nil => simp
  | cons v l ih =>
    intro x hx r hr
    rcases List.mem_cons.1 hx with rfl | hx
    · cases l with
      | nil =>
        have : x.imu = none := h
        rw [this] at hr; cases hr
      | cons w l =>
        obtain ⟨⟨n, h1⟩, h2, -⟩ := h
        rw [h1] at hr
        injection hr with hr
        subst hr
        exact ⟨rfl, h2, w, by simp, rfl⟩
    · obtain ⟨a, b, w, hw, c⟩ := ih h.tail x hx r hr
      exact ⟨a, b, w, List.mem_cons_of_mem _ hw, c⟩

theorem Linked.concat {l : List (View K)} {v w : View K} (h : Linked (l ++ [v])) {n : Nat}
    (hlt : v.num < w.num) (hw : w.imu = none) :
    Linked (l ++ [{ v with imu := some ⟨n, v.num, w.num⟩ }, w]) := by
  induction l with
  | nil => exact ⟨⟨n, rfl⟩, hlt, hw⟩
  | cons x l ih =>
    cases l with
    | nil =>
      obtain ⟨⟨m, h1⟩, h2, h3⟩ := h
      exact ⟨⟨m, h1⟩, h2, ⟨n, rfl⟩, hlt, hw⟩
    | cons y l =>
      obtain ⟨h1, h2, h3⟩ := h
      exact ⟨h1, h2, ih h3⟩

/-! ### The constructor of a view -/

/-- The state of the constructor after some measurements `ms` of the view. -/
structure VB (p0 : Problem Par (Res K)) (n0 num : Nat) (cams : List (Int × CamFlags))
    (acc : List (Fid K) × Problem Par (Res K) × Nat) : Prop where
  prob : PInv acc.2.1
  le : n0 ≤ acc.2.2
  freshR : ∀ b ∈ acc.2.1.rblocks, b.2.num < acc.2.2
  new : ∀ f ∈ acc.1, n0 ≤ f.id ∧ f.view = num ∧ (SMap.find f.cam cams).isSome
  content : ∀ r, r ∈ acc.2.1.rblocks.map Prod.snd ↔
    r ∈ p0.rblocks.map Prod.snd ∨ r ∈ acc.1.map Res.fid
  old : ∀ b ∈ p0.rblocks, b ∈ acc.2.1.rblocks
  pb : ∀ x, x ∈ acc.2.1.pblocks ↔
    x ∈ p0.pblocks ∨ ∃ f ∈ acc.1, x ∈ (Res.fid f).blocks

theorem VB.addFid {p0 : Problem Par (Res K)} {n0 num : Nat} {cams : List (Int × CamFlags)}
    {acc acc' : List (Fid K) × Problem Par (Res K) × Nat} (h : VB p0 n0 num cams acc) {cam : Int}
    (hc : (SMap.find cam cams).isSome) {m : (Int × Int) × (K × K)}
    (ha : addFid cam num acc m = .ok acc') : VB p0 n0 num cams acc' := by
  unfold VI.addFid at ha
  obtain ⟨out, h1, h2⟩ := bindOk ha
  injection h2 with h2
  subst h2
  obtain ⟨-, -, hr, hn, hpb⟩ := addResidual_ok h1
  refine ⟨?_, ?_, ?_, ?_, ?_, ?_, ?_⟩
  · refine h.prob.addResidual h1 ?_
    intro hx
    obtain ⟨id, hx⟩ := mem_snd.1 hx
    have := h.freshR _ hx
    simp [Res.num] at this
  · have := h.le; show n0 ≤ acc.2.2 + 1; omega
  · intro b hb
    show _ < acc.2.2 + 1
    rw [hr, List.mem_append] at hb
    rcases hb with hb | hb
    · have := h.freshR b hb; omega
    · simp only [List.mem_singleton] at hb
      subst hb; simp [Res.num]
  · intro f hf
    rcases List.mem_append.1 hf with hf | hf
    · exact h.new f hf
    · simp only [List.mem_singleton] at hf
      subst hf
      exact ⟨h.le, rfl, hc⟩
  · intro r
    simp only [hr, List.map_append, List.mem_append, List.map_cons, List.map_nil]
    have := h.content r
    tauto
  · intro b hb
    simp only [hr, List.mem_append]
    exact Or.inl (h.old b hb)
  · intro x
    simp only [hpb, mem_foldl_insSet, List.mem_append, List.mem_singleton]
    have := h.pb x
    rw [this]
    constructor
    · rintro (hx | hx | ⟨f, hf, hx⟩)
      · exact Or.inr ⟨_, Or.inr rfl, hx⟩
      · exact Or.inl hx
      · exact Or.inr ⟨f, Or.inl hf, hx⟩
    · rintro (hx | ⟨f, hf | rfl, hx⟩)
      · exact Or.inr (Or.inl hx)
      · exact Or.inr (Or.inr ⟨f, hf, hx⟩)
      · exact Or.inl hx

theorem VB.fold {p0 : Problem Par (Res K)} {n0 num : Nat} {cams : List (Int × CamFlags)} {cam : Int}
    (hc : (SMap.find cam cams).isSome) (ms : List ((Int × Int) × (K × K)))
    {acc acc' : List (Fid K) × Problem Par (Res K) × Nat} (h : VB p0 n0 num cams acc)
    (ha : ms.foldlM (VI.addFid cam num) acc = .ok acc') : VB p0 n0 num cams acc' := by
  induction ms generalizing acc with
  | nil =>
    injection ha with ha
    exact ha ▸ h
  | cons m ms ih =>
    rw [List.foldlM_cons] at ha
    obtain ⟨a, h1, h2⟩ := bindOk ha
    exact ih (h.addFid hc h1) h2

theorem VB.grids {p0 : Problem Par (Res K)} {n0 num : Nat} {env : VEnv K D} {live : Bool}
    {cams : List (Int × CamFlags)} (grids : List (Int × Grid K))
    {acc acc' : List (Fid K) × Problem Par (Res K) × Nat} (h : VB p0 n0 num cams acc)
    (ha : grids.foldlM (addGridRes env live cams num) acc = .ok acc') : VB p0 n0 num cams acc' := by
  induction grids generalizing acc with
  | nil =>
    injection ha with ha
    exact ha ▸ h
  | cons g grids ih =>
    rw [List.foldlM_cons] at ha
    obtain ⟨a, h1, h2⟩ := bindOk ha
    refine ih ?_ h2
    unfold addGridRes at h1
    obtain ⟨ms, h3, h4⟩ := bindOk h1
    split_ifs at h4 with hc
    cases ms with
    | nil => injection h4 with h4; exact h4 ▸ h
    | cons m ms =>
      refine VB.fold ?_ _ h h4
      simp only [ne_eq, reduceCtorEq, not_false_eq_true, true_and, Option.isNone_iff_eq_none] at hc
      exact Option.isSome_iff_ne_none.2 hc

/-- What remains true of a state after a view has been built, before it is linked. -/
structure Built (s t : St K D) (ts : Int) (grids : List (Int × Grid K)) (v : View K) : Prop where
  eq : t = { s with views := s.views ++ [v], prob := t.prob, next := t.next }
  num : v.num = s.next
  vts : v.ts = ts
  vgrids : v.grids = grids
  imu : v.imu = none
  vb : VB (addParam (addParam s.prob (.pose s.next)) (.sb s.next)) (s.next + 1) s.next s.cams
    (v.fids, t.prob, t.next)

theorem newView_built {env : VEnv K D} {s t : St K D} {ts : Int} {grids : List (Int × Grid K)}
    (hp : PInv s.prob) (hf : ∀ b ∈ s.prob.rblocks, b.2.num < s.next)
    (h : newView env s ts grids = .ok t) : ∃ v, Built s t ts grids v := by
  unfold newView at h
  obtain ⟨out, h1, h2⟩ := bindOk h
  injection h2 with h2
  subst h2
  refine ⟨⟨s.next, ts, grids, out.1, none⟩, rfl, rfl, rfl, rfl, rfl, ?_⟩
  refine VB.grids grids ?_ h1
  refine ⟨(hp.addParam _).addParam _, le_refl _, ?_, by simp, by simp, fun _ h => h, by simp⟩
  intro b hb
  have := hf b hb
  show _ < s.next + 1
  omega

/-- The invariant of a state in which the last view is not linked yet. -/
structure WF0 (s : St K D) (views : List (View K)) (v : View K) : Prop where
  eq : s.views = views ++ [v]
  lt : ∀ w ∈ views, w.num < v.num
  linked : Linked views
  imu : v.imu = none
  prob : PInv s.prob
  freshR : ∀ b ∈ s.prob.rblocks, b.2.num < s.next
  freshV : ∀ v ∈ s.views, v.num < s.next
  fids : ∀ v ∈ s.views, ∀ f ∈ v.fids, f.view = v.num ∧ (SMap.find f.cam s.cams).isSome
  content : ∀ r, r ∈ s.prob.rblocks.map Prod.snd ↔
    (∃ v ∈ s.views, r ∈ v.residuals) ∨ ∃ id, s.marg = some (id, r)
  marg : ∀ id r, s.marg = some (id, r) → (id, r) ∈ s.prob.rblocks ∧ PriorOk s.views r
  pImuExt : .imuExt ∈ s.prob.pblocks
  pDelay : .delay ∈ s.prob.pblocks
  pFid : .fiducial ∈ s.prob.pblocks ↔ s.fiducial = true
  pExt : ∀ i, .ext i ∈ s.prob.pblocks ↔ (SMap.find i s.cams).isSome
  pCam : ∀ i, .cam i ∈ s.prob.pblocks → (SMap.find i s.cams).isSome
  pPose : ∀ k, .pose k ∈ s.prob.pblocks ↔ ∃ v ∈ s.views, v.num = k
  pSb : ∀ k, .sb k ∈ s.prob.pblocks ↔ ∃ v ∈ s.views, v.num = k

theorem PriorOk.append {l m : List (View K)} {r : Res K} (h : PriorOk l r) : PriorOk (l ++ m) r := by
  obtain ⟨n, ps, v, rest, h1, h2, h3⟩ := h
  exact ⟨n, ps, v, rest ++ m, h1, by simp [h2], h3⟩

theorem WF.built {s t : St K D} {ts : Int} {grids : List (Int × Grid K)} {v : View K} (h : WF s)
    (hfid : s.fiducial = true) (hb : Built s t ts grids v) : WF0 t s.views v := by
  obtain ⟨heq, hnum, -, -, himu, hvb⟩ := hb
  have e1 : t.views = s.views ++ [v] := by rw [heq]
  have e2 : t.cams = s.cams := by rw [heq]
  have e3 : t.marg = s.marg := by rw [heq]
  have e4 : t.fiducial = s.fiducial := by rw [heq]
  have hle : s.next + 1 ≤ t.next := hvb.le
  have hpb : ∀ x, x ∈ t.prob.pblocks ↔ (x = .sb s.next ∨ x = .pose s.next ∨ x ∈ s.prob.pblocks) ∨
      ∃ f ∈ v.fids, x ∈ (Res.fid f).blocks := by
    intro x
    have := hvb.pb x
    simp only [mem_addParam] at this
    exact this
  have hnew := hvb.new
  simp only at hnew
  have hfb : ∀ f ∈ v.fids, (Res.fid f).blocks =
      [.fiducial, .pose s.next, .imuExt, .ext f.cam, .cam f.cam] := by
    intro f hf
    simp [Res.blocks, (hnew f hf).2.1]
  have hcont := hvb.content
  simp only [addParam_rblocks] at hcont
  refine ⟨e1, ?_, h.linked, himu, hvb.prob, hvb.freshR, ?_, ?_, ?_, ?_, ?_, ?_, ?_, ?_, ?_, ?_, ?_⟩
  · intro w hw; rw [hnum]; exact h.freshV w hw
  · intro w hw
    rw [e1, List.mem_append, List.mem_singleton] at hw
    rcases hw with hw | rfl
    · have := h.freshV w hw; omega
    · omega
  · intro w hw f hf
    rw [e1, List.mem_append, List.mem_singleton] at hw
    rw [e2]
    rcases hw with hw | rfl
    · exact h.fids w hw f hf
    · exact ⟨(hnew f hf).2.1.trans hnum.symm, (hnew f hf).2.2⟩
  · intro r
    rw [hcont, h.content, e1, e3]
    have hres : v.residuals = v.fids.map Res.fid := by simp [View.residuals, himu]
    simp only [List.mem_append, List.mem_singleton, or_and_right, exists_or, exists_eq_left, hres]
    exact or_right_comm
  · intro id r hr
    rw [e3] at hr
    rw [e1]
    exact ⟨hvb.old _ (h.marg id r hr).1, (h.marg id r hr).2.append⟩
  · rw [hpb]; exact Or.inl (Or.inr (Or.inr h.pImuExt))
  · rw [hpb]; exact Or.inl (Or.inr (Or.inr h.pDelay))
  · rw [hpb, e4]
    exact ⟨fun _ => hfid, fun hx => Or.inl (Or.inr (Or.inr (h.pFid.2 hx)))⟩
  · intro i
    rw [hpb, e2, ← h.pExt i]
    constructor
    · rintro ((hx | hx | hx) | ⟨f, hf, hx⟩)
      · cases hx
      · cases hx
      · exact hx
      · rw [hfb f hf] at hx
        simp only [List.mem_cons, reduceCtorEq, Par.ext.injEq, List.not_mem_nil, or_false,
          false_or] at hx
        rw [hx]
        exact (h.pExt _).2 (hnew f hf).2.2
    · intro hx; exact Or.inl (Or.inr (Or.inr hx))
  · intro i
    rw [hpb, e2]
    rintro ((hx | hx | hx) | ⟨f, hf, hx⟩)
    · cases hx
    · cases hx
    · exact h.pCam i hx
    · rw [hfb f hf] at hx
      simp only [List.mem_cons, reduceCtorEq, Par.cam.injEq, List.not_mem_nil, or_false,
        false_or] at hx
      rw [hx]
      exact (hnew f hf).2.2
  · intro k
    rw [hpb, e1]
    simp only [List.mem_append, List.mem_singleton, or_and_right, exists_or, exists_eq_left,
      ← h.pPose k, hnum]
    constructor
    · rintro ((hx | hx | hx) | ⟨f, hf, hx⟩)
      · cases hx
      · injection hx with hx; exact Or.inr hx.symm
      · exact Or.inl hx
      · rw [hfb f hf] at hx
        simp only [List.mem_cons, reduceCtorEq, Par.pose.injEq, List.not_mem_nil, or_false,
          false_or] at hx
        exact Or.inr hx.symm
    · rintro (hx | rfl)
      · exact Or.inl (Or.inr (Or.inr hx))
      · exact Or.inl (Or.inr (Or.inl rfl))
  · intro k
    rw [hpb, e1]
    simp only [List.mem_append, List.mem_singleton, or_and_right, exists_or, exists_eq_left,
      ← h.pSb k, hnum]
    constructor
    · rintro ((hx | hx | hx) | ⟨f, hf, hx⟩)
      · injection hx with hx; exact Or.inr hx.symm
      · cases hx
      · exact Or.inl hx
      · rw [hfb f hf] at hx
        simp at hx
    · rintro (hx | rfl)
      · exact Or.inl (Or.inr (Or.inr hx))
      · exact Or.inl (Or.inl rfl)

/-- The first view needs no link. -/
theorem WF0.first {s : St K D} {v : View K} (h : WF0 s [] v) (hi : s.initialized = true)
    (hf : s.fiducial = true) : WF s where
  prob := h.prob
  freshR := h.freshR
  freshV := h.freshV
  linked := by rw [h.eq]; exact h.imu
  fids := h.fids
  content := h.content
  marg := h.marg
  pImuExt := h.pImuExt
  pDelay := h.pDelay
  pFid := h.pFid
  pExt := h.pExt
  pCam := h.pCam
  pPose := h.pPose
  pSb := h.pSb
  init := by simp [hi, h.eq]
  fidOk := fun _ => hf

private theorem orShuffle (A B C D E : Prop) :
    (((A ∨ B ∨ C) ∨ D) ∨ E) ↔ ((A ∨ (B ∨ E) ∨ C) ∨ D) := by tauto

/-- The result of linking. -/
theorem linkViews_eq {s t : St K D} {l : List (View K)} {vj vk : View K}
    (he : s.views = l ++ [vj, vk]) (h : linkViews s = .ok t) :
    ∃ out, addResidual s.prob (.imu ⟨s.next, vj.num, vk.num⟩) = .ok out ∧
      t = { s with views := l ++ [{ vj with imu := some ⟨s.next, vj.num, vk.num⟩ }, vk],
                   prob := out.2, next := s.next + 1 } := by
  unfold linkViews at h
  have : s.views.reverse = vk :: vj :: l.reverse := by simp [he]
  rw [this] at h
  obtain ⟨out, h1, h2⟩ := bindOk h
  injection h2 with h2
  refine ⟨out, h1, ?_⟩
  rw [← h2, List.reverse_reverse]

theorem WF0.link {s t : St K D} {l : List (View K)} {vj vk : View K} (h : WF0 s (l ++ [vj]) vk)
    (hi : s.initialized = true) (hf : s.fiducial = true) (ht : linkViews s = .ok t) : WF t := by
  have he : s.views = l ++ [vj, vk] := by rw [h.eq]; simp
  obtain ⟨out, h1, rfl⟩ := linkViews_eq he ht
  obtain ⟨-, -, hr, hn, hpb⟩ := addResidual_ok h1
  have hj : vj ∈ s.views := by simp [he]
  have hk : vk ∈ s.views := by simp [he]
  have hjimu : vj.imu = none := by
    have : ∀ m : List (View K), Linked (m ++ [vj]) → vj.imu = none := by
      intro m
      induction m with
      | nil => exact fun h => h
      | cons x m ih =>
        intro hm
        cases m with
        | nil => exact hm.2.2
        | cons y m => exact ih hm.2.2
    exact this l h.linked
  have hpb' : ∀ x, x ∈ out.2.pblocks ↔ x ∈ s.prob.pblocks := by
    intro x
    rw [hpb, mem_foldl_insSet]
    simp only [Res.blocks, List.mem_cons, List.not_mem_nil, or_false]
    constructor
    · rintro ((rfl | rfl | rfl | rfl | rfl) | hx)
      · exact (h.pPose _).2 ⟨vj, hj, rfl⟩
      · exact (h.pSb _).2 ⟨vj, hj, rfl⟩
      · exact (h.pPose _).2 ⟨vk, hk, rfl⟩
      · exact (h.pSb _).2 ⟨vk, hk, rfl⟩
      · exact h.pDelay
      · exact hx
    · exact Or.inr
  have hnums : ∀ k, (∃ v ∈ l ++ [{ vj with imu := some ⟨s.next, vj.num, vk.num⟩ }, vk], v.num = k) ↔
      ∃ v ∈ s.views, v.num = k := by
    intro k
    rw [he]
    simp only [List.mem_append, List.mem_cons, List.not_mem_nil, or_false, or_and_right, exists_or,
      exists_eq_left]
  refine ⟨?_, ?_, ?_, ?_, ?_, ?_, ?_, ?_, ?_, ?_, ?_, ?_, ?_, ?_, ?_, ?_⟩
  · refine h.prob.addResidual h1 ?_
    intro hx
    obtain ⟨id, hx⟩ := mem_snd.1 hx
    have := h.freshR _ hx
    simp [Res.num] at this
  · intro b hb
    simp only [hr, List.mem_append, List.mem_singleton] at hb
    show _ < s.next + 1
    rcases hb with hb | rfl
    · have := h.freshR b hb; omega
    · simp [Res.num]
  · intro w hw
    show _ < s.next + 1
    obtain ⟨v, hv, hve⟩ := (hnums w.num).1 ⟨w, hw, rfl⟩
    have := h.freshV v hv
    omega
  · exact h.linked.concat (h.lt vj (by simp)) h.imu
  · intro w hw f hf'
    simp only [List.mem_append, List.mem_cons, List.not_mem_nil, or_false] at hw
    rcases hw with hw | rfl | rfl
    · exact h.fids w (by rw [he]; simp [hw]) f hf'
    · exact h.fids vj hj f hf'
    · exact h.fids w hk f hf'
  · intro r
    simp only [hr, List.map_append, List.mem_append, List.map_cons, List.map_nil,
      List.mem_singleton]
    rw [h.content, he]
    have hres : ({ vj with imu := some ⟨s.next, vj.num, vk.num⟩ } : View K).residuals =
        vj.residuals ++ [.imu ⟨s.next, vj.num, vk.num⟩] := by
      simp [View.residuals, hjimu]
    simp only [List.mem_append, List.mem_cons, List.not_mem_nil, or_false, or_and_right, exists_or,
      exists_eq_left, hres]
    exact orShuffle _ _ _ _ _
  · intro id r hm
    refine ⟨?_, ?_⟩
    · simp only [hr, List.mem_append]
      exact Or.inl (h.marg id r hm).1
    · obtain ⟨n, ps, v, rest, a1, a2, a3, a4⟩ := (h.marg id r hm).2
      rw [he] at a2
      cases l with
      | nil =>
        simp only [List.nil_append, List.cons.injEq] at a2
        obtain ⟨rfl, -⟩ := a2
        exact ⟨n, ps, _, _, a1, rfl, a3, a4⟩
      | cons x l =>
        simp only [List.cons_append, List.cons.injEq] at a2
        obtain ⟨rfl, -⟩ := a2
        exact ⟨n, ps, _, _, a1, rfl, a3, a4⟩
  · exact (hpb' _).2 h.pImuExt
  · exact (hpb' _).2 h.pDelay
  · exact (hpb' _).trans h.pFid
  · intro i; exact (hpb' _).trans (h.pExt i)
  · intro i hx; exact h.pCam i ((hpb' _).1 hx)
  · intro k; exact (hpb' _).trans ((h.pPose k).trans (hnums k).symm)
  · intro k; exact (hpb' _).trans ((h.pSb k).trans (hnums k).symm)
  · simp [hi]
  · exact fun _ => hf

end Yac.VI
