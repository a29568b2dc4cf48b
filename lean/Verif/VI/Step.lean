import Verif.VI.Lemmas

/-!
# The invariant is kept by every call
-/

namespace Yac.VI

open Yac.AprilGrid (Grid)
open Yac.Solver (Problem insSet mem_insSet nodup_insSet nodup_map_inj)

variable {K D : Type} [DecidableEq K]

/-! ### Marginalisation -/

theorem mem_seenParams (rs : List (Res K)) (q : Par) :
    q ∈ seenParams rs ↔ ∃ r ∈ rs, q ∈ r.blocks := by
  unfold seenParams
  rw [mem_foldl_insSet]
  simp

theorem nodup_seenParams (rs : List (Res K)) : (seenParams rs).Nodup :=
  nodup_foldl_insSet _ _ List.nodup_nil

theorem mem_remainParams (s : St K D) (fl : Par → Bool) (rs : List (Res K)) (q : Par) :
    q ∈ remainParams s fl rs ↔
      (∃ r ∈ rs, q ∈ r.blocks) ∧ fl q = false ∧ isFixed s q = false ∧ q ≠ .delay := by
  unfold remainParams
  simp only [List.mem_append, List.mem_filter, mem_seenParams, Bool.and_eq_true, Bool.not_eq_true']
  cases q <;> simp [isPose, isSb, isFid, isExt, isCam]

/-- The type of a parameter, as a number. -/
def kind : Par → Nat
  | .pose _ => 0 | .sb _ => 1 | .fiducial => 2 | .ext _ => 3 | .imuExt => 3 | .cam _ => 4
  | .delay => 5

theorem nodup_remainParams (s : St K D) (fl : Par → Bool) (rs : List (Res K)) :
    (remainParams s fl rs).Nodup := by
  unfold remainParams
  have hl : ((seenParams rs).filter (fun p => !fl p && !isFixed s p)).Nodup :=
    (nodup_seenParams rs).filter _
  simp only [List.nodup_append]
  have k1 : ∀ x, isPose x = true → kind x = 0 := by intro x; cases x <;> simp [isPose, kind]
  have k2 : ∀ x, isSb x = true → kind x = 1 := by intro x; cases x <;> simp [isSb, kind]
  have k3 : ∀ x, isFid x = true → kind x = 2 := by intro x; cases x <;> simp [isFid, kind]
  have k4 : ∀ x, isExt x = true → kind x = 3 := by intro x; cases x <;> simp [isExt, kind]
  have k5 : ∀ x, isCam x = true → kind x = 4 := by intro x; cases x <;> simp [isCam, kind]
  refine ⟨⟨⟨⟨hl.filter _, hl.filter _, ?_⟩, hl.filter _, ?_⟩, hl.filter _, ?_⟩, hl.filter _, ?_⟩
  · intro x hx y hy hxy
    subst hxy
    simp only [List.mem_append, List.mem_filter] at hx hy
    have hy2 := k2 x hy.2
    have := k1 x hx.2; omega
  · intro x hx y hy hxy
    subst hxy
    simp only [List.mem_append, List.mem_filter] at hx hy
    have hy2 := k3 x hy.2
    rcases hx with hx | hx
    · have := k1 x hx.2; omega
    · have := k2 x hx.2; omega
  · intro x hx y hy hxy
    subst hxy
    simp only [List.mem_append, List.mem_filter] at hx hy
    have hy2 := k4 x hy.2
    rcases hx with (hx | hx) | hx
    · have := k1 x hx.2; omega
    · have := k2 x hx.2; omega
    · have := k3 x hx.2; omega
  · intro x hx y hy hxy
    subst hxy
    simp only [List.mem_append, List.mem_filter] at hx hy
    have hy2 := k5 x hy.2
    rcases hx with ((hx | hx) | hx) | hx
    · have := k1 x hx.2; omega
    · have := k2 x hx.2; omega
    · have := k3 x hx.2; omega
    · have := k4 x hx.2; omega

theorem res_ge {s : St K D} (h : WF s) {x : View K} (hx : x ∈ s.views) {r : Res K}
    (hr : r ∈ x.residuals) {k : Nat} (hk : .pose k ∈ r.blocks ∨ .sb k ∈ r.blocks) : x.num ≤ k := by
  simp only [View.residuals, List.mem_append, List.mem_map, Option.mem_toList] at hr
  rcases hr with ⟨f, hf, rfl⟩ | ⟨m, hm, rfl⟩
  · have := (h.fids x hx f hf).1
    simp only [Res.blocks, List.mem_cons, reduceCtorEq, Par.pose.injEq, List.not_mem_nil, or_false,
      false_or] at hk
    omega
  · obtain ⟨h1, h2, -⟩ := h.linked.imu_lt x hx m hm
    simp only [Res.blocks, List.mem_cons, reduceCtorEq, Par.pose.injEq, List.not_mem_nil, or_false,
      Par.sb.injEq, false_or] at hk
    omega

/-- The residuals that involve the oldest view are its own and the prior. -/
theorem touch_oldest {s : St K D} (h : WF s) {v : View K} {rest : List (View K)}
    (hv : s.views = v :: rest) {r : Res K} (hr : r ∈ s.prob.rblocks.map Prod.snd) :
    (.pose v.num ∈ r.blocks ∨ .sb v.num ∈ r.blocks) ↔
      r ∈ v.residuals ∨ ∃ id, s.marg = some (id, r) := by
  constructor
  · intro ht
    rcases (h.content r).1 hr with ⟨x, hx, hxr⟩ | hm
    · rw [hv] at hx
      rcases List.mem_cons.1 hx with rfl | hx'
      · exact Or.inl hxr
      · have h1 := res_ge h (hv ▸ hx) hxr ht
        have h2 := (hv ▸ h.linked : Linked (v :: rest)).head_lt x hx'
        omega
    · exact Or.inr hm
  · rintro (hr | ⟨id, hm⟩)
    · left
      have hvm : v ∈ s.views := by simp [hv]
      simp only [View.residuals, List.mem_append, List.mem_map, Option.mem_toList] at hr
      rcases hr with ⟨f, hf, rfl⟩ | ⟨m, hm, rfl⟩
      · simp [Res.blocks, (h.fids v hvm f hf).1]
      · simp [Res.blocks, (h.linked.imu_lt v hvm m hm).1]
    · obtain ⟨-, n, ps, v', rest', rfl, h2, -, h4, -⟩ := h.marg id r hm
      rw [hv] at h2
      injection h2 with h2
      subst h2
      exact Or.inl h4

/-- What `marginalize` does, when it succeeds. -/
theorem marginalize_eq {s t : St K D} (h : marginalize s = .ok t) :
    ∃ v rest p m out, s.views = v :: rest ∧ dropMarg s = .ok p ∧ v.imu = some m ∧
      addResidual (((seenParams ((s.marg.map Prod.snd).toList ++ [Res.imu m] ++
          v.fids.map Res.fid)).filter (isFlagged v)).foldl dropParam p)
        (.marg s.next (remainParams s (isFlagged v) ((s.marg.map Prod.snd).toList ++ [Res.imu m] ++
          v.fids.map Res.fid))) = .ok out ∧
      t = { s with
        prob := destroyView out.2 v,
        marg := some (out.1, .marg s.next (remainParams s (isFlagged v)
          ((s.marg.map Prod.snd).toList ++ [Res.imu m] ++ v.fids.map Res.fid))),
        next := s.next + 1, views := rest } := by
  unfold marginalize at h
  cases hv : s.views with
  | nil => rw [hv] at h; simp at h
  | cons v rest =>
    rw [hv] at h
    obtain ⟨p, h1, h2⟩ := bindOk h
    obtain ⟨rs, h3, h4⟩ := bindOk h2
    simp only at h4
    split_ifs at h4 with hc
    obtain ⟨out, h5, h6⟩ := bindOk h4
    injection h6 with h6
    cases hi : v.imu with
    | none => rw [margInput, hi] at h3; simp at h3
    | some m =>
      rw [margInput, hi] at h3
      injection h3 with h3
      subst h3
      exact ⟨v, rest, p, m, out, rfl, h1, hi, h5, h6.symm⟩

theorem dropMarg_spec {s : St K D} (h : WF s) {p : Problem Par (Res K)} (hp : dropMarg s = .ok p) :
    PInv p ∧ p.pblocks = s.prob.pblocks ∧
      ∀ b, b ∈ p.rblocks ↔ b ∈ s.prob.rblocks ∧ ∀ m, s.marg = some m → b ≠ m := by
  unfold dropMarg at hp
  cases hm : s.marg with
  | none =>
    rw [hm] at hp
    injection hp with hp
    subst hp
    exact ⟨h.prob, rfl, by simp⟩
  | some m =>
    rw [hm] at hp
    obtain ⟨h1, h2, h3⟩ := h.prob.removeResidual hp
    refine ⟨h1, h2, ?_⟩
    intro b
    rw [h3]
    simp only [Option.some.injEq, forall_eq']
    refine and_congr_right fun hb => not_congr ⟨?_, fun h => by rw [h]⟩
    intro he
    exact nodup_map_inj h.prob.ids hb (h.marg m.1 m.2 hm).1 he

theorem WF.marginalize {s t : St K D} (h : WF s) (ht : marginalize s = .ok t) : WF t := by
  obtain ⟨v, rest, p, m, out, hv, hp, hi, ho, rfl⟩ := marginalize_eq ht
  set rs := (s.marg.map Prod.snd).toList ++ [Res.imu m] ++ v.fids.map Res.fid with hrs
  have hvm : v ∈ s.views := by simp [hv]
  obtain ⟨hp1, hp2, hp3⟩ := dropMarg_spec h hp
  have hlk : Linked (v :: rest) := hv ▸ h.linked
  -- the next view
  obtain ⟨w, l, rfl⟩ : ∃ w l, rest = w :: l := by
    cases rest with
    | nil =>
      have : v.imu = none := hlk
      rw [hi] at this; cases this
    | cons w l => exact ⟨w, l, rfl⟩
  have hmi : m = ⟨m.id, v.num, w.num⟩ := by
    obtain ⟨⟨n, h1⟩, -⟩ := hlk
    rw [hi] at h1
    injection h1 with h1
    subst h1; rfl
  have hvw : v.num < w.num := hlk.2.1
  have himu : Res.imu m ∈ rs := by simp [hrs]
  -- the flagged parameters
  have hmp : ∀ q, q ∈ (seenParams rs).filter (isFlagged v) ↔ q = .pose v.num ∨ q = .sb v.num := by
    intro q
    rw [List.mem_filter, mem_seenParams]
    simp only [isFlagged, Bool.or_eq_true, decide_eq_true_eq]
    refine ⟨fun h => h.2, fun hq => ⟨⟨_, himu, ?_⟩, hq⟩⟩
    rw [hmi]
    rcases hq with rfl | rfl <;> simp [Res.blocks]
  obtain ⟨hq1, hq2, hq3⟩ := hp1.dropParams ((seenParams rs).filter (isFlagged v))
  set p1 := ((seenParams rs).filter (isFlagged v)).foldl dropParam p with hp1d
  -- the residuals that go
  have hrsIn : ∀ r ∈ rs, r ∈ v.residuals ∨ ∃ id, s.marg = some (id, r) := by
    intro r hr
    simp only [hrs, List.mem_append, List.mem_singleton] at hr
    rcases hr with (hr | rfl) | hr
    · right
      cases hm : s.marg with
      | none => rw [hm] at hr; simp at hr
      | some m' =>
        rw [hm] at hr
        simp only [Option.map_some, Option.toList_some, List.mem_singleton] at hr
        exact ⟨m'.1, by rw [hr]⟩
    · left; simp [View.residuals, hi]
    · left
      simp only [View.residuals, List.mem_append]
      exact Or.inl hr
  have hrsP : ∀ r ∈ rs, r ∈ s.prob.rblocks.map Prod.snd := by
    intro r hr
    rw [h.content]
    rcases hrsIn r hr with hr | hr
    · exact Or.inl ⟨v, hvm, hr⟩
    · exact Or.inr hr
  -- parameters
  have hrem : ∀ q, q ∈ remainParams s (isFlagged v) rs → q ∈ p1.pblocks := by
    intro q hq
    rw [mem_remainParams] at hq
    obtain ⟨⟨r, hr, hqr⟩, hfl, -, -⟩ := hq
    rw [hq3, hmp]
    refine ⟨?_, ?_⟩
    · rw [hp2]
      obtain ⟨id, hid⟩ := mem_snd.1 (hrsP r hr)
      exact h.prob.closed _ hid q hqr
    · simpa [isFlagged] using hfl
  obtain ⟨hnd, ho1, ho2, ho3, ho4⟩ := addResidual_ok ho
  simp only [Res.blocks] at hnd ho4
  have hpb : ∀ x, x ∈ out.2.pblocks ↔ x ∈ s.prob.pblocks ∧ x ≠ .pose v.num ∧ x ≠ .sb v.num := by
    intro x
    rw [ho4, mem_foldl_insSet]
    have : x ∈ p1.pblocks ↔ x ∈ s.prob.pblocks ∧ x ≠ .pose v.num ∧ x ≠ .sb v.num := by
      rw [hq3, hp2, hmp, not_or]
    rw [← this]
    exact ⟨fun hx => hx.elim (hrem x) id, Or.inr⟩
  have hcont1 : ∀ r, r ∈ p1.rblocks.map Prod.snd ↔ ∃ x ∈ w :: l, r ∈ x.residuals := by
    intro r
    constructor
    · intro hr
      obtain ⟨id, hid⟩ := mem_snd.1 hr
      obtain ⟨hb, hq⟩ := (hq2 _).1 hid
      have hb' := ((hp3 _).1 hb).1
      have hrp : r ∈ s.prob.rblocks.map Prod.snd := mem_snd.2 ⟨id, hb'⟩
      have hnt := mt (touch_oldest h hv hrp).2 (by
        rintro (h' | h')
        · exact hq _ ((hmp _).2 (Or.inl rfl)) h'
        · exact hq _ ((hmp _).2 (Or.inr rfl)) h')
      rcases (h.content r).1 hrp with ⟨x, hx, hxr⟩ | hm
      · rw [hv] at hx
        rcases List.mem_cons.1 hx with rfl | hx'
        · exact absurd (Or.inl hxr) hnt
        · exact ⟨x, hx', hxr⟩
      · exact absurd (Or.inr hm) hnt
    · rintro ⟨x, hx, hxr⟩
      have hx' : x ∈ s.views := by rw [hv]; exact List.mem_cons_of_mem _ hx
      have hrp : r ∈ s.prob.rblocks.map Prod.snd := (h.content r).2 (Or.inl ⟨x, hx', hxr⟩)
      have hlt := hlk.head_lt x hx
      have hnt : ¬ (.pose v.num ∈ r.blocks ∨ .sb v.num ∈ r.blocks) := by
        intro ht
        have := res_ge h hx' hxr ht
        omega
      obtain ⟨id, hid⟩ := mem_snd.1 hrp
      refine mem_snd.2 ⟨id, (hq2 _).2 ⟨(hp3 _).2 ⟨hid, ?_⟩, ?_⟩⟩
      · intro m' hm' he
        subst he
        exact hnt ((touch_oldest h hv hrp).2 (Or.inr ⟨id, hm'⟩))
      · intro q hq hqr
        rcases (hmp q).1 hq with rfl | rfl
        · exact hnt (Or.inl hqr)
        · exact hnt (Or.inr hqr)
  have hfresh1 : ∀ b ∈ p1.rblocks, b.2.num < s.next := by
    intro b hb
    exact h.freshR b ((hp3 _).1 ((hq2 _).1 hb).1).1
  have hPout : PInv out.2 := by
    refine hq1.addResidual ho ?_
    intro hx
    obtain ⟨id, hx⟩ := mem_snd.1 hx
    have := hfresh1 _ hx
    simp [Res.num] at this
  -- the destructor has nothing left to do
  have hdes : destroyView out.2 v = out.2 := by
    have h1 : Par.pose v.num ∉ out.2.pblocks := by rw [hpb]; simp
    have h2 : Par.sb v.num ∉ out.2.pblocks := by rw [hpb]; simp
    unfold destroyView
    have e1 : dropParam out.2 (.pose v.num) = out.2 := by unfold dropParam; rw [if_neg h1]
    rw [e1]
    unfold dropParam; rw [if_neg h2]
  have hnums : ∀ k, (∃ x ∈ w :: l, x.num = k) ↔ (∃ x ∈ s.views, x.num = k) ∧ k ≠ v.num := by
    intro k
    rw [hv]
    constructor
    · rintro ⟨x, hx, rfl⟩
      have := hlk.head_lt x hx
      exact ⟨⟨x, List.mem_cons_of_mem _ hx, rfl⟩, by omega⟩
    · rintro ⟨⟨x, hx, rfl⟩, hk⟩
      rcases List.mem_cons.1 hx with rfl | hx
      · exact absurd rfl hk
      · exact ⟨x, hx, rfl⟩
  have hsub : ∀ x ∈ w :: l, x ∈ s.views := by
    intro x hx; rw [hv]; exact List.mem_cons_of_mem _ hx
  have hin : s.initialized = true := h.init.2 (by rw [hv]; simp)
  -- the new prior
  have hprior : PriorOk (w :: l) (.marg s.next (remainParams s (isFlagged v) rs)) := by
    have hcase : ∀ r ∈ rs, ∀ k, (.pose k ∈ r.blocks ∨ .sb k ∈ r.blocks) → k = v.num ∨ k = w.num := by
      intro r hr k hk
      simp only [hrs, List.mem_append, List.mem_singleton] at hr
      rcases hr with (hr | rfl) | hr
      · cases hm : s.marg with
        | none => rw [hm] at hr; simp at hr
        | some m' =>
          rw [hm] at hr
          simp only [Option.map_some, Option.toList_some, List.mem_singleton] at hr
          obtain ⟨-, n, ps, v', rest', h1, h2, -, -, h5, h6, -⟩ := h.marg m'.1 m'.2 hm
          rw [hv] at h2
          injection h2 with h2
          subst h2
          rw [hr, h1] at hk
          rcases hk with hk | hk
          · exact Or.inl (h5 k hk)
          · exact Or.inl (h6 k hk)
      · rw [hmi] at hk
        simp only [Res.blocks, List.mem_cons, reduceCtorEq, Par.pose.injEq, Par.sb.injEq,
          List.not_mem_nil, or_false, false_or] at hk
        tauto
      · obtain ⟨f, hf, rfl⟩ := List.mem_map.1 hr
        simp only [Res.blocks, List.mem_cons, reduceCtorEq, Par.pose.injEq,
          List.not_mem_nil, or_false, false_or] at hk
        exact Or.inl (hk.trans (h.fids v hvm f hf).1)
    refine ⟨_, _, w, l, rfl, rfl, hnd, ?_, ?_, ?_, ?_⟩
    · rw [mem_remainParams]
      refine ⟨⟨_, himu, ?_⟩, ?_, rfl, by simp⟩
      · rw [hmi]; simp [Res.blocks]
      · simp [isFlagged]; omega
    · intro k hk
      rw [mem_remainParams] at hk
      obtain ⟨⟨r, hr, hk⟩, hfl, -⟩ := hk
      rcases hcase r hr k (Or.inl hk) with rfl | rfl
      · simp [isFlagged] at hfl
      · rfl
    · intro k hk
      rw [mem_remainParams] at hk
      obtain ⟨⟨r, hr, hk⟩, hfl, -⟩ := hk
      rcases hcase r hr k (Or.inr hk) with rfl | rfl
      · simp [isFlagged] at hfl
      · rfl
    · intro hk
      rw [mem_remainParams] at hk
      exact hk.2.2.2 rfl
  rw [hdes]
  refine ⟨hPout, ?_, ?_, hlk.tail, ?_, ?_, ?_, ?_, ?_, ?_, ?_, ?_, ?_, ?_, ?_, ?_⟩
  · intro b hb
    show _ < s.next + 1
    simp only [ho2, List.mem_append, List.mem_singleton] at hb
    rcases hb with hb | rfl
    · have := hfresh1 b hb; omega
    · simp [Res.num]
  · intro x hx
    have := h.freshV x (hsub x hx)
    show _ < s.next + 1
    omega
  · intro x hx
    exact h.fids x (hsub x hx)
  · intro r
    simp only [ho2, List.map_append, List.mem_append, List.map_cons, List.map_nil,
      List.mem_singleton]
    rw [hcont1]
    refine or_congr_right ⟨fun h => ⟨out.1, by rw [h]⟩, ?_⟩
    rintro ⟨id, hid⟩
    simp only [Option.some.injEq, Prod.mk.injEq] at hid
    exact hid.2.symm
  · intro id r hr
    simp only [Option.some.injEq, Prod.mk.injEq] at hr
    obtain ⟨rfl, rfl⟩ := hr
    exact ⟨by simp [ho2, ho1], hprior⟩
  · exact (hpb _).2 ⟨h.pImuExt, by simp⟩
  · exact (hpb _).2 ⟨h.pDelay, by simp⟩
  · rw [hpb]; simpa using h.pFid
  · intro i; rw [hpb]; simpa using h.pExt i
  · intro i hx; rw [hpb] at hx; exact h.pCam i hx.1
  · intro k
    rw [hpb]
    simp only
    rw [hnums k, h.pPose k]
    simp
  · intro k
    rw [hpb]
    simp only
    rw [hnums k, h.pSb k]
    simp
  · simp [hin]
  · exact h.fidOk

/-! ### The other calls -/

theorem WF.new (m : Bool) (w : Int) (a b : Bool) : WF (St.new m w a b : St K D) where
  prob := ((⟨by simp, by simp, by simp, by simp, by simp⟩ : PInv ⟨[], [], 0⟩).addParam _).addParam _
  freshR := by simp [St.new, addParam]
  freshV := by simp [St.new]
  linked := trivial
  fids := by simp [St.new]
  content := by simp [St.new, addParam]
  marg := by simp [St.new]
  pImuExt := by simp [St.new, mem_addParam]
  pDelay := by simp [St.new, mem_addParam]
  pFid := by simp [St.new, mem_addParam]
  pExt := by simp [St.new, mem_addParam, SMap.find]
  pCam := by simp [St.new, mem_addParam]
  pPose := by simp [St.new, mem_addParam]
  pSb := by simp [St.new, mem_addParam]
  init := by simp [St.new]
  fidOk := by simp [St.new]

theorem WF.addCamera {s t : St K D} (h : WF s) {i : Int} {fp fe : Bool}
    (ht : addCamera s i fp fe = .ok t) : WF t := by
  unfold VI.addCamera at ht
  by_cases hc : (SMap.find i s.cams).isSome
  · rw [if_pos hc] at ht; cases ht
  · rw [if_neg hc] at ht
    injection ht with ht
    subst ht
    have hmono : ∀ j, (SMap.find j s.cams).isSome →
        (SMap.find j (SMap.set i (⟨fp, fe⟩ : CamFlags) s.cams)).isSome := by
      intro j hj
      rw [SMap.find_set]
      split_ifs
      · rfl
      · exact hj
    have hpb : ∀ x, x ∈ (VI.addParam (if fp then VI.addParam s.prob (.cam i) else s.prob)
        (.ext i)).pblocks ↔ x = .ext i ∨ (fp = true ∧ x = .cam i) ∨ x ∈ s.prob.pblocks := by
      intro x
      rw [mem_addParam]
      cases fp
      · simp
      · simp [mem_addParam]
    refine ⟨?_, ?_, h.freshV, h.linked, ?_, ?_, ?_, ?_, ?_, ?_, ?_, ?_, ?_, ?_, h.init, h.fidOk⟩
    · cases fp
      · exact h.prob.addParam _
      · exact (h.prob.addParam _).addParam _
    · cases fp <;> exact h.freshR
    · intro v hv f hf
      exact ⟨(h.fids v hv f hf).1, hmono _ (h.fids v hv f hf).2⟩
    · cases fp <;> exact h.content
    · cases fp <;> exact h.marg
    · exact (hpb _).2 (by simp [h.pImuExt])
    · exact (hpb _).2 (by simp [h.pDelay])
    · rw [hpb]; simpa using h.pFid
    · intro j
      rw [hpb]
      have := h.pExt j
      simp only [Par.ext.injEq, reduceCtorEq, and_false, false_or, this, SMap.find_set]
      split_ifs with hj
      · simp [hj]
      · simp [hj]
    · intro j hj
      rw [hpb] at hj
      simp only [reduceCtorEq, Par.cam.injEq, false_or] at hj
      rcases hj with ⟨-, rfl⟩ | hj
      · simp [SMap.find_set]
      · exact hmono _ (h.pCam j hj)
    · intro k; rw [hpb]; simpa using h.pPose k
    · intro k; rw [hpb]; simpa using h.pSb k

theorem WF.addGrid {s : St K D} (h : WF s) (cam : Int) (g : Grid K) : WF (addGrid s cam g) := by
  unfold VI.addGrid
  split_ifs
  · exact h
  · exact { h with }

theorem addGrid_fields (s : St K D) (cam : Int) (g : Grid K) :
    (addGrid s cam g).views = s.views ∧ (addGrid s cam g).cams = s.cams ∧
    (addGrid s cam g).enableMarg = s.enableMarg ∧ (addGrid s cam g).windowSize = s.windowSize ∧
    (addGrid s cam g).imu = s.imu ∧ (addGrid s cam g).marg = s.marg ∧
    (addGrid s cam g).prob = s.prob ∧ (addGrid s cam g).initialized = s.initialized := by
  unfold VI.addGrid
  split_ifs <;> exact ⟨rfl, rfl, rfl, rfl, rfl, rfl, rfl, rfl⟩

/-- What initialisation does, when it succeeds. -/
theorem initVI_eq {env : VEnv K D} {s t : St K D} {grids : List (Int × Grid K)}
    (h : initVI env s grids = .ok t) :
    ∃ g t', SMap.find 0 grids = some g ∧ g.detected = true ∧ (SMap.find 0 s.cams).isSome ∧
      env.estimate g = true ∧
      newView env { s with prob := if s.fiducial then s.prob else addParam s.prob .fiducial,
                           fiducial := true } g.timestamp grids = .ok t' ∧
      t = { t' with initialized := true } := by
  unfold initVI at h
  cases hg : SMap.find 0 grids with
  | none => rw [hg] at h; simp at h
  | some g =>
    rw [hg] at h
    simp only at h
    split_ifs at h with h1 h2 h3
    · obtain ⟨t', h4, h5⟩ := bindOk h
      injection h5 with h5
      refine ⟨g, t', rfl, by simpa using h1, ?_, by simpa using h3, ?_, h5.symm⟩
      · cases hh : SMap.find 0 s.cams <;> simp_all
      · rw [if_pos ‹_›]; exact h4
    · obtain ⟨t', h4, h5⟩ := bindOk h
      injection h5 with h5
      refine ⟨g, t', rfl, by simpa using h1, ?_, by simpa using h3, ?_, h5.symm⟩
      · cases hh : SMap.find 0 s.cams <;> simp_all
      · rw [if_neg ‹_›]; exact h4

theorem WF.fid {s : St K D} (h : WF s) :
    WF { s with prob := if s.fiducial then s.prob else VI.addParam s.prob .fiducial,
                fiducial := true } := by
  cases hf : s.fiducial
  · have hpb := mem_addParam s.prob .fiducial
    refine { prob := h.prob.addParam _, freshR := h.freshR, freshV := h.freshV, linked := h.linked,
             fids := h.fids, content := h.content, marg := h.marg, pImuExt := ?_, pDelay := ?_,
             pFid := ?_, pExt := ?_, pCam := ?_, pPose := ?_, pSb := ?_, init := h.init,
             fidOk := fun _ => rfl }
    · exact (hpb _).2 (Or.inr h.pImuExt)
    · exact (hpb _).2 (Or.inr h.pDelay)
    · simp [hpb]
    · intro i; exact (hpb _).trans (by simpa using h.pExt i)
    · intro i hx; exact h.pCam i (by simpa [hpb] using hx)
    · intro k; exact (hpb _).trans (by simpa using h.pPose k)
    · intro k; exact (hpb _).trans (by simpa using h.pSb k)
  · exact { h with pFid := ⟨fun _ => rfl, fun _ => h.pFid.2 hf⟩, fidOk := fun _ => rfl }

theorem WF.initVI {env : VEnv K D} {s t : St K D} {grids : List (Int × Grid K)} (h : WF s)
    (hn : s.initialized = false) (ht : initVI env s grids = .ok t) : WF t := by
  obtain ⟨g, t', -, -, -, -, h1, rfl⟩ := initVI_eq ht
  have hw := h.fid
  obtain ⟨v, hb⟩ := newView_built hw.prob hw.freshR h1
  have hv0 : s.views = [] := by
    by_contra hne
    have := h.init.2 hne
    rw [hn] at this; cases this
  have h0 := hw.built rfl hb
  have e4 : t'.fiducial = true := by rw [hb.eq]
  have h1 : WF0 t' [] v := by
    have : ({ s with prob := if s.fiducial then s.prob else VI.addParam s.prob .fiducial,
                     fiducial := true } : St K D).views = [] := hv0
    rw [this] at h0
    exact h0
  exact WF0.first (s := { t' with initialized := true }) { h1 with } rfl e4

/-- What adding a view does, when it succeeds. -/
theorem addView_eq {env : VEnv K D} {s t : St K D} {grids : List (Int × Grid K)}
    (h : addView env s grids = .ok t) :
    (t = s ∧ (s.initialized = false ∨ firstDetected grids = none)) ∨
    ∃ cg s1 s2, s.initialized = true ∧ firstDetected grids = some cg ∧ s.views ≠ [] ∧
      newView env { s with counter := s.counter + 1 } cg.2.timestamp grids = .ok s1 ∧
      ¬ s1.imu.size < 5 ∧ linkViews s1 = .ok s2 ∧ trimImu s2 cg.2.timestamp = .ok t := by
  unfold addView at h
  by_cases hi : s.initialized = false
  · rw [if_pos hi] at h
    injection h with h
    exact Or.inl ⟨h.symm, Or.inl hi⟩
  · rw [if_neg hi] at h
    cases hd : firstDetected grids with
    | none =>
      rw [hd] at h
      injection h with h
      exact Or.inl ⟨h.symm, Or.inr rfl⟩
    | some cg =>
      rw [hd] at h
      simp only at h
      split_ifs at h with h1 h2 h3
      obtain ⟨s1, h4, h5⟩ := bindOk h
      split_ifs at h5 with h6
      obtain ⟨s2, h7, h8⟩ := bindOk h5
      exact Or.inr ⟨cg, s1, s2, by simpa using hi, rfl, h3, h4, h6, h7, h8⟩

theorem trimImu_eq {s t : St K D} {ts : Int} (h : trimImu s ts = .ok t) :
    ∃ b, t = { s with imu := b } := by
  unfold trimImu at h
  split_ifs at h
  · obtain ⟨b, -, h2⟩ := bindOk h
    injection h2 with h2
    exact ⟨b, h2.symm⟩
  · injection h with h
    exact ⟨s.imu, h.symm⟩

theorem list_concat_of_ne {α : Type} {l : List α} (h : l ≠ []) : ∃ m a, l = m ++ [a] :=
  ⟨l.dropLast, l.getLast h, (List.dropLast_append_getLast h).symm⟩

theorem WF.addView {env : VEnv K D} {s t : St K D} {grids : List (Int × Grid K)} (h : WF s)
    (ht : addView env s grids = .ok t) : WF t := by
  rcases addView_eq ht with ⟨rfl, -⟩ | ⟨cg, s1, s2, hi, -, hne, h1, -, h2, h3⟩
  · exact h
  · have hc : WF { s with counter := s.counter + 1 } := { h with }
    obtain ⟨v, hb⟩ := newView_built hc.prob hc.freshR h1
    have hf := h.fidOk hi
    have h0 := hc.built hf hb
    obtain ⟨l, vj, hl⟩ := list_concat_of_ne hne
    have h0' : WF0 s1 (l ++ [vj]) v := by
      have : ({ s with counter := s.counter + 1 } : St K D).views = l ++ [vj] := hl
      rw [this] at h0
      exact h0
    have hw := h0'.link (by rw [hb.eq]; exact hi) (by rw [hb.eq]; exact hf) h2
    obtain ⟨b, rfl⟩ := trimImu_eq h3
    exact { hw with }

theorem WF.slide {s t : St K D} (h : WF s) (ht : slide s = .ok t) : WF t := by
  unfold VI.slide at ht
  split_ifs at ht with hc
  · obtain ⟨s1, h1, h2⟩ := bindOk ht
    injection h2 with h2
    subst h2
    have := h.marginalize h1
    exact { this with }
  · injection ht with ht
    exact ht ▸ h

theorem WF.process {env : VEnv K D} {s t : St K D} {grids : List (Int × Grid K)} {b : Bool} (h : WF s)
    (ht : process env s grids = .ok (t, b)) : WF t := by
  unfold VI.process at ht
  split_ifs at ht with hc
  · obtain ⟨s1, h1, h2⟩ := bindOk ht
    simp only [Except.ok.injEq, Prod.mk.injEq] at h2
    obtain ⟨rfl, -⟩ := h2
    exact h.initVI hc.1 h1
  · obtain ⟨s1, h1, h2⟩ := bindOk ht
    obtain ⟨s2, h3, h4⟩ := bindOk h2
    simp only [Except.ok.injEq, Prod.mk.injEq] at h4
    obtain ⟨rfl, -⟩ := h4
    exact (h.addView h1).slide h3

theorem WF.addImu {env : VEnv K D} {s t : St K D} {ts : Int} {a w : D} {b : Bool} (h : WF s)
    (ht : addImu env s ts a w = .ok (t, b)) : WF t := by
  unfold VI.addImu at ht
  simp only at ht
  split_ifs at ht with hc
  · simp only [Except.ok.injEq, Prod.mk.injEq] at ht
    obtain ⟨rfl, -⟩ := ht
    exact { h with }
  · exact WF.process (s := { s with imu := s.imu.add ts a w, imuStarted := true, gridBuf := [] })
      { h with } ht

/-! ### Reset -/

theorem destroy_spec {p : Problem Par (Res K)} (hp : PInv p) (v : View K) :
    PInv (destroyView p v) ∧
      (∀ b, b ∈ (destroyView p v).rblocks ↔
        b ∈ p.rblocks ∧ .pose v.num ∉ b.2.blocks ∧ .sb v.num ∉ b.2.blocks) ∧
      (∀ x, x ∈ (destroyView p v).pblocks ↔ x ∈ p.pblocks ∧ x ≠ .pose v.num ∧ x ≠ .sb v.num) := by
  unfold destroyView
  obtain ⟨h1, h2, h3⟩ := hp.dropParam (.pose v.num)
  obtain ⟨i1, i2, i3⟩ := h1.dropParam (.sb v.num)
  refine ⟨i1, ?_, ?_⟩
  · intro b; rw [i2, h2]; tauto
  · intro x; rw [i3, h3]; tauto

theorem destroyAll_spec {p : Problem Par (Res K)} (hp : PInv p) (l : List (View K)) :
    PInv (l.foldl destroyView p) ∧
      (∀ b, b ∈ (l.foldl destroyView p).rblocks ↔
        b ∈ p.rblocks ∧ ∀ v ∈ l, .pose v.num ∉ b.2.blocks ∧ .sb v.num ∉ b.2.blocks) ∧
      (∀ x, x ∈ (l.foldl destroyView p).pblocks ↔
        x ∈ p.pblocks ∧ ∀ v ∈ l, x ≠ .pose v.num ∧ x ≠ .sb v.num) := by
  induction l generalizing p with
  | nil => simp [hp]
  | cons v l ih =>
    obtain ⟨h1, h2, h3⟩ := destroy_spec hp v
    obtain ⟨i1, i2, i3⟩ := ih h1
    refine ⟨i1, ?_, ?_⟩
    · intro b; rw [List.foldl_cons, i2, h2]; simp only [List.forall_mem_cons]; tauto
    · intro x; rw [List.foldl_cons, i3, h3]; simp only [List.forall_mem_cons]; tauto

/-- After a reset the problem holds no residual. -/
theorem reset_rblocks {s : St K D} (h : WF s) : (reset s).prob.rblocks = [] := by
  rw [List.eq_nil_iff_forall_not_mem]
  intro b hb
  obtain ⟨hb, hn⟩ := ((destroyAll_spec h.prob s.views).2.1 b).1 hb
  rcases (h.content b.2).1 (mem_snd.2 ⟨b.1, hb⟩) with ⟨v, hv, hr⟩ | ⟨id, hm⟩
  · obtain ⟨h1, h2⟩ := hn v hv
    simp only [View.residuals, List.mem_append, List.mem_map, Option.mem_toList] at hr
    rcases hr with ⟨f, hf, he⟩ | ⟨m, hm, he⟩
    · rw [← he] at h1
      simp [Res.blocks, (h.fids v hv f hf).1] at h1
    · rw [← he] at h1
      simp [Res.blocks, (h.linked.imu_lt v hv m hm).1] at h1
  · obtain ⟨-, n, ps, v, rest, h1, h2, -, h4, -⟩ := h.marg id b.2 hm
    have := (hn v (by simp [h2])).1
    rw [h1] at this
    exact this h4

theorem reset_pblocks {s : St K D} (h : WF s) (x : Par) :
    x ∈ (reset s).prob.pblocks ↔ x ∈ s.prob.pblocks ∧ (∀ k, x ≠ .pose k ∧ x ≠ .sb k) := by
  refine ((destroyAll_spec h.prob s.views).2.2 x).trans (and_congr_right fun hx => ?_)
  constructor
  · intro hn k
    refine ⟨?_, ?_⟩
    · rintro rfl
      obtain ⟨v, hv, rfl⟩ := (h.pPose k).1 hx
      exact (hn v hv).1 rfl
    · rintro rfl
      obtain ⟨v, hv, rfl⟩ := (h.pSb k).1 hx
      exact (hn v hv).2 rfl
  · intro hn v _
    exact hn v.num

theorem WF.reset {s : St K D} (h : WF s) (hm : s.marg = none) : WF (reset s) := by
  have hr := reset_rblocks h
  have hp := reset_pblocks h
  refine ⟨(destroyAll_spec h.prob s.views).1, ?_, ?_, trivial, ?_, ?_, ?_, ?_, ?_, ?_, ?_, ?_, ?_,
    ?_, ?_, ?_⟩
  · rw [hr]; simp
  · simp [VI.reset]
  · simp [VI.reset]
  · rw [hr]; simp [VI.reset, hm]
  · simp [VI.reset, hm]
  · rw [hp]; simp [h.pImuExt]
  · rw [hp]; simp [h.pDelay]
  · rw [hp]; simpa [VI.reset] using h.pFid
  · intro i; rw [hp]; simpa [VI.reset] using h.pExt i
  · intro i; rw [hp]; exact fun hx => h.pCam i hx.1
  · intro k; rw [hp]; simp [VI.reset]
  · intro k; rw [hp]; simp [VI.reset]
  · simp [VI.reset]
  · simp [VI.reset]

end Yac.VI
