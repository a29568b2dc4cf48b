import Verif.CamMem.Model

/-! # C152: the problem never points to freed memory -/

namespace Yac.CamMem

/-! ### Specification -/

/-- The cameras that a history adds. -/
def added : List Op → List Int
  | [] => []
  | .camera i :: ops => i :: added ops
  | _ :: ops => added ops

/-- Everything the problem points to is allocated, and so is everything that the residuals of the problem point to. -/
def Clean (m : St) : Prop :=
  (∀ p ∈ m.pp, m.par p = true) ∧ ∀ r ∈ m.pr, ∃ ps, m.res r = some ps ∧ ∀ p ∈ ps, m.par p = true

/-! ### Invariant -/

/-- A parameter of a camera. -/
def IsCam (m : St) (x : Nat) : Prop := ∃ i a b, m.cams i = some (a, b) ∧ (x = a ∨ x = b)

/-- A residual of a view. -/
def OfView (m : St) (ts : Int) (r : Nat) : Prop := ∃ p i a b, m.poses ts = some p ∧ m.cams i = some (a, b) ∧ m.res r = some [p, b, a]

/-- What always holds. -/
structure Inv (m : St) : Prop where
  cam : ∀ i a b, m.cams i = some (a, b) → (m.par a = true ∧ a ∈ m.pp) ∧ m.par b = true ∧ b ∈ m.pp
  pose : ∀ ts p, m.poses ts = some p → m.par p = true
  vpose : ∀ ts l, m.views ts = some l → ∃ p, m.poses ts = some p
  inj : ∀ ts ts' p, m.poses ts = some p → m.poses ts' = some p → ts = ts'
  sep : ∀ ts p, m.poses ts = some p → ¬ IsCam m p
  pp : ∀ x ∈ m.pp, IsCam m x ∨ ∃ ts, m.poses ts = some x
  vres : ∀ ts l, m.views ts = some l → ∀ r ∈ l, OfView m ts r
  vpr : ∀ ts l p, m.views ts = some l → m.poses ts = some p → p ∈ m.pp → ∀ r ∈ l, r ∈ m.pr
  vnodup : ∀ ts l, m.views ts = some l → l.Nodup
  pr : ∀ r ∈ m.pr, (∃ ts, OfView m ts r ∧ ∀ p, m.poses ts = some p → p ∈ m.pp) ∨ m.marg = some r
  marg : ∀ g, m.marg = some g → ∃ ps, m.res g = some ps ∧ ∀ x ∈ ps, IsCam m x
  parFresh : ∀ x, m.par x = true → x < m.next
  resFresh : ∀ r, m.res r ≠ none → r < m.next

/-- What holds between operations. -/
structure Full (m : St) : Prop extends Inv m where
  vpp : ∀ ts l p, m.views ts = some l → m.poses ts = some p → p ∈ m.pp
  gpr : ∀ g, m.marg = some g → g ∈ m.pr

theorem Inv.isCam_par {m : St} (h : Inv m) {x : Nat} (hx : IsCam m x) : m.par x = true := by
  obtain ⟨i, a, b, hi, rfl | rfl⟩ := hx
  · exact (h.cam i _ b hi).1.1
  · exact (h.cam i a _ hi).2.1

theorem Inv.isCam_pp {m : St} (h : Inv m) {x : Nat} (hx : IsCam m x) : x ∈ m.pp := by
  obtain ⟨i, a, b, hi, rfl | rfl⟩ := hx
  · exact (h.cam i _ b hi).1.2
  · exact (h.cam i a _ hi).2.2

theorem Inv.clean {m : St} (h : Inv m) : Clean m := by
  constructor
  · intro p hp
    rcases h.pp p hp with hc | ⟨ts, ht⟩
    · exact h.isCam_par hc
    · exact h.pose ts p ht
  · intro r hr
    rcases h.pr r hr with ⟨ts, ⟨p, i, a, b, h1, h2, h3⟩, -⟩ | hg
    · refine ⟨_, h3, ?_⟩
      intro x hx
      simp only [List.mem_cons, List.not_mem_nil, or_false] at hx
      rcases hx with rfl | rfl | rfl
      · exact h.pose ts _ h1
      · exact (h.cam i a _ h2).2.1
      · exact (h.cam i _ b h2).1.1
    · obtain ⟨ps, h1, h2⟩ := h.marg r hg
      exact ⟨ps, h1, fun x hx => h.isCam_par (h2 x hx)⟩

theorem clean_eval {m : St} {r : Nat} (h : ∃ ps, m.res r = some ps ∧ ∀ p ∈ ps, m.par p = true) : evalRes m r = .ok () := by
  obtain ⟨ps, h1, h2⟩ := h
  unfold evalRes
  rw [h1]
  dsimp only
  rw [if_pos (List.all_eq_true.mpr h2)]

theorem forM_ok {m : St} : ∀ (l : List Nat), (∀ r ∈ l, evalRes m r = .ok ()) → l.forM (evalRes m) = .ok ()
  | [], _ => rfl
  | r :: l, h => by
    show (evalRes m r >>= fun _ => l.forM (evalRes m)) = _
    rw [h r (by simp)]
    exact forM_ok l (fun x hx => h x (by simp [hx]))

theorem clean_solve {m : St} (h : Clean m) : solve m = .ok m := by
  unfold solve
  rw [if_pos (List.all_eq_true.mpr h.1), forM_ok _ (fun r hr => clean_eval (h.2 r hr))]
  rfl

/-! ### Adding -/

theorem addCamera_full {m : St} (h : Full m) {i : Int} (hi : m.cams i = none) : Full (addCamera m i) := by
  have hcs : ∀ j, (addCamera m i).cams j = if j = i then some (m.next, m.next + 1) else m.cams j := fun _ => rfl
  have hcam : ∀ x, IsCam m x → IsCam (addCamera m i) x := by
    rintro x ⟨j, a, b, hj, hx⟩
    refine ⟨j, a, b, ?_, hx⟩
    rw [hcs, if_neg, hj]
    rintro rfl
    rw [hi] at hj
    cases hj
  have hcam' : ∀ x, IsCam (addCamera m i) x → IsCam m x ∨ x = m.next ∨ x = m.next + 1 := by
    rintro x ⟨j, a, b, hj, hx⟩
    rw [hcs] at hj
    by_cases hji : j = i
    · rw [if_pos hji] at hj
      cases hj
      exact .inr hx
    · rw [if_neg hji] at hj
      exact .inl ⟨j, a, b, hj, hx⟩
  have hpar : ∀ x, (addCamera m i).par x = if x = m.next ∨ x = m.next + 1 then true else m.par x := by
    intro x
    show (if x = m.next ∨ x = m.next + 1 then true else freed m.par (m.cams i) x) = _
    rw [hi]
    rfl
  have hpar1 : ∀ x, m.par x = true → (addCamera m i).par x = true := by
    intro x hx
    rw [hpar, hx]
    simp
  have hppm : ∀ x, x ∈ m.pp → x ∈ (addCamera m i).pp := fun x hx => List.mem_cons_of_mem _ (List.mem_cons_of_mem _ hx)
  have hof : ∀ ts r, OfView m ts r → OfView (addCamera m i) ts r := by
    rintro ts r ⟨p, j, a, b, h1, h2, h3⟩
    refine ⟨p, j, a, b, h1, ?_, h3⟩
    rw [hcs, if_neg, h2]
    rintro rfl
    rw [hi] at h2
    cases h2
  refine ⟨⟨?_, ?_, h.vpose, h.inj, ?_, ?_, ?_, ?_, h.vnodup, ?_, ?_, ?_, ?_⟩, ?_, h.gpr⟩
  · intro j a b hj
    rw [hcs] at hj
    by_cases hji : j = i
    · rw [if_pos hji] at hj
      cases hj
      refine ⟨⟨by rw [hpar]; simp, List.mem_cons_self⟩, by rw [hpar]; simp, List.mem_cons_of_mem _ List.mem_cons_self⟩
    · rw [if_neg hji] at hj
      obtain ⟨⟨h1, h2⟩, h3, h4⟩ := h.cam j a b hj
      exact ⟨⟨hpar1 _ h1, hppm _ h2⟩, hpar1 _ h3, hppm _ h4⟩
  · intro ts p hp
    exact hpar1 _ (h.pose ts p hp)
  · intro ts p hp hc
    have hlt := h.parFresh p (h.pose ts p hp)
    rcases hcam' p hc with hc | hc
    · exact h.sep ts p hp hc
    · omega
  · intro x hx
    rcases List.mem_cons.mp hx with rfl | hx
    · exact .inl ⟨i, m.next, m.next + 1, by rw [hcs, if_pos rfl], .inl rfl⟩
    rcases List.mem_cons.mp hx with rfl | hx
    · exact .inl ⟨i, m.next, m.next + 1, by rw [hcs, if_pos rfl], .inr rfl⟩
    rcases h.pp x hx with hc | hc
    · exact .inl (hcam x hc)
    · exact .inr hc
  · intro ts l hl r hr
    exact hof ts r (h.vres ts l hl r hr)
  · intro ts l p hl hp _
    exact h.vpr ts l p hl hp (h.vpp ts l p hl hp)
  · intro r hr
    rcases h.pr r hr with ⟨ts, h1, h2⟩ | hg
    · exact .inl ⟨ts, hof ts r h1, fun p hp => hppm _ (h2 p hp)⟩
    · exact .inr hg
  · intro g hg
    obtain ⟨ps, h1, h2⟩ := h.marg g hg
    exact ⟨ps, h1, fun x hx => hcam x (h2 x hx)⟩
  · intro x hx
    show x < m.next + 2
    rw [hpar] at hx
    by_cases hn : x = m.next ∨ x = m.next + 1
    · omega
    · rw [if_neg hn] at hx
      have := h.parFresh x hx
      omega
  · intro r hr
    have := h.resFresh r hr
    show r < m.next + 2
    omega
  · intro ts l p hl hp
    exact hppm _ (h.vpp ts l p hl hp)

theorem addPose_full {m : St} (h : Full m) (ts : Int) : Full (addPose m ts) := by
  cases hp0 : m.poses ts with
  | some p =>
    have : addPose m ts = m := by unfold addPose; rw [hp0]
    rw [this]
    exact h
  | none =>
    have hd : addPose m ts = { m with par := fun x => if x = m.next then true else m.par x, next := m.next + 1, poses := put m.poses ts (some m.next), pp := m.next :: m.pp } := by
      unfold addPose; rw [hp0]
    rw [hd]
    have hps : ∀ t, put m.poses ts (some m.next) t = if t = ts then some m.next else m.poses t := fun _ => rfl
    have hold : ∀ t p, m.poses t = some p → put m.poses ts (some m.next) t = some p := by
      intro t p hp
      rw [hps, if_neg, hp]
      rintro rfl
      rw [hp0] at hp
      cases hp
    have hne : ∀ t l, m.views t = some l → t ≠ ts := by
      rintro t l hl rfl
      obtain ⟨p, hp⟩ := h.vpose t l hl
      rw [hp0] at hp
      cases hp
    have hof : ∀ t r, OfView m t r → OfView { m with par := fun x => if x = m.next then true else m.par x, next := m.next + 1, poses := put m.poses ts (some m.next), pp := m.next :: m.pp } t r := by
      rintro t r ⟨p, j, a, b, h1, h2, h3⟩
      exact ⟨p, j, a, b, hold t p h1, h2, h3⟩
    have hpar1 : ∀ x, m.par x = true → (if x = m.next then true else m.par x) = true := by
      intro x hx; rw [hx]; simp
    refine ⟨⟨?_, ?_, ?_, ?_, ?_, ?_, ?_, ?_, h.vnodup, ?_, h.marg, ?_, ?_⟩, ?_, h.gpr⟩
    · intro j a b hj
      obtain ⟨⟨h1, h2⟩, h3, h4⟩ := h.cam j a b hj
      exact ⟨⟨hpar1 _ h1, List.mem_cons_of_mem _ h2⟩, hpar1 _ h3, List.mem_cons_of_mem _ h4⟩
    · intro t p hp
      have hp' : (if t = ts then some m.next else m.poses t) = some p := hp
      by_cases ht : t = ts
      · rw [if_pos ht] at hp'; cases hp'; simp
      · rw [if_neg ht] at hp'; exact hpar1 _ (h.pose t p hp')
    · intro t l hl
      obtain ⟨p, hp⟩ := h.vpose t l hl
      exact ⟨p, hold t p hp⟩
    · intro t t' p hp hp'
      have h1 : (if t = ts then some m.next else m.poses t) = some p := hp
      have h2 : (if t' = ts then some m.next else m.poses t') = some p := hp'
      by_cases ht : t = ts
      · by_cases ht' : t' = ts
        · rw [ht, ht']
        · rw [if_pos ht] at h1; rw [if_neg ht'] at h2; cases h1
          have := h.parFresh _ (h.pose t' _ h2); omega
      · by_cases ht' : t' = ts
        · rw [if_neg ht] at h1; rw [if_pos ht'] at h2; cases h2
          have := h.parFresh _ (h.pose t _ h1); omega
        · rw [if_neg ht] at h1; rw [if_neg ht'] at h2; exact h.inj t t' p h1 h2
    · intro t p hp hc
      have h1 : (if t = ts then some m.next else m.poses t) = some p := hp
      by_cases ht : t = ts
      · rw [if_pos ht] at h1; cases h1
        have := h.parFresh _ (h.isCam_par (m := m) hc)
        omega
      · rw [if_neg ht] at h1; exact h.sep t p h1 hc
    · intro x hx
      rcases List.mem_cons.mp hx with rfl | hx
      · exact .inr ⟨ts, by show put m.poses ts _ ts = _; rw [hps, if_pos rfl]⟩
      · rcases h.pp x hx with hc | ⟨t, ht⟩
        · exact .inl hc
        · exact .inr ⟨t, hold t x ht⟩
    · intro t l hl r hr
      exact hof t r (h.vres t l hl r hr)
    · intro t l p hl _ _
      obtain ⟨q, hq⟩ := h.vpose t l hl
      exact h.vpr t l q hl hq (h.vpp t l q hl hq)
    · intro r hr
      rcases h.pr r hr with ⟨t, h1, h2⟩ | hg
      · refine .inl ⟨t, hof t r h1, fun p hp => ?_⟩
        obtain ⟨q, -, -, -, hq, -⟩ := h1
        have : p = q := Option.some.inj (hp.symm.trans (hold t q hq))
        rw [this]
        exact List.mem_cons_of_mem _ (h2 q hq)
      · exact .inr hg
    · intro x hx
      have h1 : (if x = m.next then true else m.par x) = true := hx
      show x < m.next + 1
      by_cases hn : x = m.next
      · omega
      · rw [if_neg hn] at h1
        have := h.parFresh x h1
        omega
    · intro r hr
      have := h.resFresh r hr
      show r < m.next + 1
      omega
    · intro t l p hl hp
      obtain ⟨q, hq⟩ := h.vpose t l hl
      have : p = q := Option.some.inj (hp.symm.trans (hold t q hq))
      rw [this]
      exact List.mem_cons_of_mem _ (h.vpp t l q hl hq)

theorem addPose_poses (m : St) (ts : Int) : ∃ p, (addPose m ts).poses ts = some p := by
  unfold addPose
  cases h : m.poses ts with
  | some p => exact ⟨p, h⟩
  | none => exact ⟨m.next, if_pos rfl⟩

theorem addParam_full {m : St} (h : Full m) {ts : Int} {p : Nat} (hp : m.poses ts = some p) : Full (addParam m p) ∧ p ∈ (addParam m p).pp ∧
    (addParam m p).poses = m.poses := by
  unfold addParam
  by_cases hm : p ∈ m.pp
  · rw [if_pos hm]; exact ⟨h, hm, rfl⟩
  · rw [if_neg hm]
    refine ⟨⟨⟨?_, h.pose, h.vpose, h.inj, h.sep, ?_, h.vres, ?_, h.vnodup, ?_, h.marg, h.parFresh, h.resFresh⟩, ?_, h.gpr⟩, List.mem_cons_self, rfl⟩
    · intro j a b hj
      obtain ⟨⟨h1, h2⟩, h3, h4⟩ := h.cam j a b hj
      exact ⟨⟨h1, List.mem_cons_of_mem _ h2⟩, h3, List.mem_cons_of_mem _ h4⟩
    · intro x hx
      rcases List.mem_cons.mp hx with rfl | hx
      · exact .inr ⟨ts, hp⟩
      · exact h.pp x hx
    · intro t l q hl hq _
      exact h.vpr t l q hl hq (h.vpp t l q hl hq)
    · intro r hr
      rcases h.pr r hr with ⟨t, h1, h2⟩ | hg
      · exact .inl ⟨t, h1, fun q hq => List.mem_cons_of_mem _ (h2 q hq)⟩
      · exact .inr hg
    · intro t l q hl hq
      exact List.mem_cons_of_mem _ (h.vpp t l q hl hq)

/-- While the residuals of a view are made. -/
structure Mid (ts : Int) (p : Nat) (s : St × List Nat) : Prop where
  full : Full s.1
  pose : s.1.poses ts = some p
  pp : p ∈ s.1.pp
  mem : ∀ r ∈ s.2, r ∈ s.1.pr ∧ OfView s.1 ts r
  nodup : s.2.Nodup

theorem addResidual_mid {ts : Int} {p : Nat} {s : St × List Nat} (h : Mid ts p s) (i : Int) : Mid ts p (addResidual p s i) := by
  obtain ⟨m, l⟩ := s
  unfold addResidual
  cases hc : m.cams i with
  | none => exact h
  | some ab =>
    obtain ⟨a, b⟩ := ab
    dsimp only
    obtain ⟨hf, hp, hpp, hmem, hnd⟩ := h
    dsimp only at hf hp hpp hmem hnd
    have hres : ∀ r ps, m.res r = some ps → (if r = m.next then some [p, b, a] else m.res r) = some ps := by
      intro r ps hr
      rw [if_neg, hr]
      have := hf.resFresh r (by rw [hr]; simp)
      omega
    have hof : ∀ t r, OfView m t r → OfView { m with res := fun r => if r = m.next then some [p, b, a] else m.res r, next := m.next + 1, pr := m.next :: m.pr } t r := by
      rintro t r ⟨q, j, a', b', h1, h2, h3⟩
      exact ⟨q, j, a', b', h1, h2, hres r _ h3⟩
    have hnew : OfView { m with res := fun r => if r = m.next then some [p, b, a] else m.res r, next := m.next + 1, pr := m.next :: m.pr } ts m.next :=
      ⟨p, i, a, b, hp, hc, if_pos rfl⟩
    refine ⟨⟨⟨hf.cam, hf.pose, hf.vpose, hf.inj, hf.sep, hf.pp, ?_, ?_, hf.vnodup, ?_, ?_, ?_, ?_⟩, hf.vpp, ?_⟩, hp, hpp, ?_, ?_⟩
    · intro t l' hl r hr
      exact hof t r (hf.vres t l' hl r hr)
    · intro t l' q hl hq hqp r hr
      exact List.mem_cons_of_mem _ (hf.vpr t l' q hl hq hqp r hr)
    · intro r hr
      rcases List.mem_cons.mp hr with rfl | hr
      · refine .inl ⟨ts, hnew, fun q hq => ?_⟩
        rw [← Option.some.inj (hp.symm.trans hq)]
        exact hpp
      · rcases hf.pr r hr with ⟨t, h1, h2⟩ | hg
        · exact .inl ⟨t, hof t r h1, h2⟩
        · exact .inr hg
    · intro g hg
      obtain ⟨ps, h1, h2⟩ := hf.marg g hg
      exact ⟨ps, hres g ps h1, h2⟩
    · intro x hx
      exact Nat.lt_succ_of_lt (hf.parFresh x hx)
    · intro r hr
      show r < m.next + 1
      by_cases hn : r = m.next
      · omega
      · have := hf.resFresh r (by intro h0; exact hr (by show (if r = m.next then _ else m.res r) = none; rw [if_neg hn, h0]))
        omega
    · intro g hg
      exact List.mem_cons_of_mem _ (hf.gpr g hg)
    · intro r hr
      rcases List.mem_append.mp hr with hr | hr
      · exact ⟨List.mem_cons_of_mem _ (hmem r hr).1, hof ts r (hmem r hr).2⟩
      · rw [List.mem_singleton] at hr
        subst hr
        exact ⟨List.mem_cons_self, hnew⟩
    · rw [List.nodup_append]
      refine ⟨hnd, by simp, ?_⟩
      intro x hx y hy
      rw [List.mem_singleton] at hy
      obtain ⟨q, j, a', b', -, -, h3⟩ := (hmem x hx).2
      have := hf.resFresh x (by rw [h3]; simp)
      omega

theorem fold_mid {ts : Int} {p : Nat} : ∀ (c : List Int) (s : St × List Nat), Mid ts p s → Mid ts p (c.foldl (addResidual p) s)
  | [], _, h => h
  | i :: c, s, h => fold_mid c _ (addResidual_mid h i)

theorem addView_full {m : St} (h : Full m) (ts : Int) (c : List Int) : ∃ m', addView m ts c = .ok m' ∧ Full m' := by
  obtain ⟨p, hp⟩ := addPose_poses m ts
  obtain ⟨h1, h2, h3⟩ := addParam_full (addPose_full h ts) hp
  have hm : Mid ts p (addParam (addPose m ts) p, []) := ⟨h1, by rw [h3]; exact hp, h2, (by intro r hr; cases hr), List.nodup_nil⟩
  obtain ⟨hf, hp', hpp, hmem, hnd⟩ := fold_mid c _ hm
  unfold addView
  simp only [hp]
  generalize hs : c.foldl (addResidual p) (addParam (addPose m ts) p, []) = s at *
  obtain ⟨m', l⟩ := s
  dsimp only at hf hp' hpp hmem hnd ⊢
  refine ⟨_, rfl, ?_⟩
  have hv : ∀ t l', put m'.views ts (some l) t = some l' → (t = ts ∧ l' = l) ∨ m'.views t = some l' := by
    intro t l' hl
    by_cases ht : t = ts
    · have : put m'.views ts (some l) t = some l := if_pos ht
      rw [this] at hl
      exact .inl ⟨ht, (Option.some.inj hl).symm⟩
    · have : put m'.views ts (some l) t = m'.views t := if_neg ht
      rw [this] at hl
      exact .inr hl
  refine ⟨⟨hf.cam, hf.pose, ?_, hf.inj, hf.sep, hf.pp, ?_, ?_, ?_, hf.pr, hf.marg, hf.parFresh, hf.resFresh⟩, ?_, hf.gpr⟩
  · intro t l' hl
    rcases hv t l' hl with ⟨rfl, rfl⟩ | hl
    · exact ⟨p, hp'⟩
    · exact hf.vpose t l' hl
  · intro t l' hl r hr
    rcases hv t l' hl with ⟨rfl, rfl⟩ | hl
    · exact (hmem r hr).2
    · exact hf.vres t l' hl r hr
  · intro t l' q hl hq hqp r hr
    rcases hv t l' hl with ⟨rfl, rfl⟩ | hl
    · exact (hmem r hr).1
    · exact hf.vpr t l' q hl hq hqp r hr
  · intro t l' hl
    rcases hv t l' hl with ⟨rfl, rfl⟩ | hl
    · exact hnd
    · exact hf.vnodup t l' hl
  · intro t l' q hl hq
    rcases hv t l' hl with ⟨rfl, rfl⟩ | hl
    · rw [← Option.some.inj (hp'.symm.trans hq)]; exact hpp
    · exact hf.vpp t l' q hl hq

/-! ### Removing -/

theorem Inv.of_unique {m : St} (h : Inv m) {t ts : Int} {r : Nat} (h1 : OfView m t r) (h2 : OfView m ts r) : t = ts := by
  obtain ⟨p, -, a, b, hp, -, hr⟩ := h1
  obtain ⟨q, -, a', b', hq, -, hr'⟩ := h2
  have : [p, b, a] = [q, b', a'] := Option.some.inj (hr.symm.trans hr')
  have : p = q := (List.cons.inj this).1
  subst this
  exact h.inj t ts p hp hq

theorem Inv.of_marg {m : St} (h : Inv m) {ts : Int} {r : Nat} (h1 : OfView m ts r) : m.marg ≠ some r := by
  intro hg
  obtain ⟨ps, h2, h3⟩ := h.marg r hg
  obtain ⟨p, -, a, b, hp, -, hr⟩ := h1
  have : [p, b, a] = ps := Option.some.inj (hr.symm.trans h2)
  exact h.sep ts p hp (h3 p (by rw [← this]; simp))

theorem removeParam_inv {m : St} (h : Inv m) {ts : Int} {p : Nat} (hp : m.poses ts = some p) (hpp : p ∈ m.pp) :
    ∃ m', removeParam m p = .ok m' ∧ Inv m' ∧ p ∉ m'.pp ∧ (∀ q ∈ m.pp, q ≠ p → q ∈ m'.pp) ∧
      (∀ g, m.marg = some g → g ∈ m.pr → g ∈ m'.pr) ∧ (∀ r ∈ m'.pr, r ∈ m.pr) ∧
      m'.par = m.par ∧ m'.res = m.res ∧ m'.next = m.next ∧ m'.cams = m.cams ∧ m'.poses = m.poses ∧ m'.views = m.views ∧ m'.marg = m.marg ∧
      m'.kept = m.kept := by
  have hkeep : ∀ q, q ∈ m.pp → q ≠ p → q ∈ m.pp.filter (fun x => decide (x ≠ p)) := fun q hq hne => List.mem_filter.mpr ⟨hq, by simp [hne]⟩
  have hout : ∀ q, q ∈ m.pp.filter (fun x => decide (x ≠ p)) → q ∈ m.pp ∧ q ≠ p := by
    intro q hq
    obtain ⟨h1, h2⟩ := List.mem_filter.mp hq
    exact ⟨h1, by simpa using h2⟩
  have hcne : ∀ x, IsCam m x → x ≠ p := by
    rintro x hx rfl
    exact h.sep ts x hp hx
  refine ⟨{ m with pp := m.pp.filter (fun x => decide (x ≠ p)), pr := m.pr.filter (fun r => decide (p ∉ (m.res r).getD [])) }, ?_,
    ⟨?_, h.pose, h.vpose, h.inj, h.sep, ?_, h.vres, ?_, h.vnodup, ?_, h.marg, h.parFresh, h.resFresh⟩, ?_, fun q h1 h2 => hkeep q h1 h2, ?_, ?_,
    rfl, rfl, rfl, rfl, rfl, rfl, rfl, rfl⟩
  · unfold removeParam
    rw [if_pos hpp]
  · intro j a b hj
    obtain ⟨⟨h1, h2⟩, h3, h4⟩ := h.cam j a b hj
    exact ⟨⟨h1, hkeep _ h2 (hcne _ ⟨j, a, b, hj, .inl rfl⟩)⟩, h3, hkeep _ h4 (hcne _ ⟨j, a, b, hj, .inr rfl⟩)⟩
  · intro x hx
    exact h.pp x (hout x hx).1
  · intro t l q hl hq hqp r hr
    obtain ⟨h1, h2⟩ := hout q hqp
    refine List.mem_filter.mpr ⟨h.vpr t l q hl hq h1 r hr, ?_⟩
    obtain ⟨q', j, a, b, h3, h4, h5⟩ := h.vres t l hl r hr
    have hqq : q' = q := Option.some.inj (h3.symm.trans hq)
    subst hqq
    have e1 := hcne a ⟨j, a, b, h4, .inl rfl⟩
    have e2 := hcne b ⟨j, a, b, h4, .inr rfl⟩
    rw [h5]
    simp [Ne.symm h2, Ne.symm e1, Ne.symm e2]
  · intro r hr
    obtain ⟨h1, h2⟩ := List.mem_filter.mp hr
    rcases h.pr r h1 with ⟨t, h3, h4⟩ | hg
    · refine .inl ⟨t, h3, fun q hq => hkeep q (h4 q hq) ?_⟩
      rintro rfl
      obtain ⟨q', j, a, b, h5, h6, h7⟩ := h3
      have hqq : q' = q := Option.some.inj (h5.symm.trans hq)
      subst hqq
      rw [h7] at h2
      simp at h2
    · exact .inr hg
  · intro hp'
    exact (hout p hp').2 rfl
  · intro g hg hgp
    refine List.mem_filter.mpr ⟨hgp, ?_⟩
    obtain ⟨ps, h1, h2⟩ := h.marg g hg
    rw [h1]
    simp only [Option.getD_some, decide_eq_true_eq]
    intro hps
    exact hcne p (h2 p hps) rfl
  · intro r hr
    exact (List.mem_filter.mp hr).1

theorem freeRes_all : ∀ (l : List Nat) (m : St), l.Nodup → (∀ r ∈ l, m.res r ≠ none) →
    l.foldlM freeRes m = .ok { m with res := fun x => if x ∈ l then none else m.res x }
  | [], m, _, _ => by simp [pure, Except.pure]
  | r :: l, m, hn, ha => by
    rw [List.nodup_cons] at hn
    have h1 : freeRes m r = .ok { m with res := fun x => if x = r then none else m.res x } := by
      unfold freeRes
      cases hr : m.res r with
      | none => exact absurd hr (ha r (by simp))
      | some _ => rfl
    rw [List.foldlM_cons, h1]
    show l.foldlM freeRes _ = _
    rw [freeRes_all l _ hn.2]
    · congr 2
      funext x
      by_cases h2 : x = r
      · simp [h2]
      · simp only [List.mem_cons, h2, false_or, if_false]
    · intro q hq
      dsimp only
      rw [if_neg]
      · exact ha q (by simp [hq])
      · rintro rfl
        exact hn.1 hq

/-- What is allocated has an owner. -/
structure Own (m : St) : Prop where
  par : ∀ x, m.par x = true → IsCam m x ∨ ∃ ts, m.poses ts = some x
  res : ∀ r, m.res r ≠ none → (∃ ts l, m.views ts = some l ∧ r ∈ l) ∨ m.marg = some r ∨ r ∈ m.kept

/-- Between operations, but for the view at `ts`. -/
structure Semi (m : St) (ts : Int) : Prop extends Inv m where
  vpp : ∀ t l p, t ≠ ts → m.views t = some l → m.poses t = some p → p ∈ m.pp
  gpr : ∀ g, m.marg = some g → g ∈ m.pr

theorem gone {m : St} {ts : Int} (h : Semi m ts) {p : Nat} (hp : m.poses ts = some p) (hpp : p ∉ m.pp) :
    ∃ m', (freePar m p >>= fun m2 => (.ok { m2 with poses := put m2.poses ts none } : Except Fault St)) >>= (fun m1 => deleteView m1 ts) = .ok m' ∧
      Full m' ∧ (Own m → Own m') := by
  have hfp : freePar m p = .ok { m with par := fun x => if x = p then false else m.par x } := by
    unfold freePar
    rw [if_pos (h.pose ts p hp)]
  obtain ⟨l, hl, hln, hlv⟩ : ∃ l, (m.views ts).getD [] = l ∧ l.Nodup ∧ ∀ r ∈ l, OfView m ts r := by
    cases hv : m.views ts with
    | none => exact ⟨[], rfl, by simp, by simp⟩
    | some l => exact ⟨l, rfl, h.vnodup ts l hv, h.vres ts l hv⟩
  have hres : ∀ r ∈ l, m.res r ≠ none := by
    intro r hr
    obtain ⟨q, j, a, b, -, -, h3⟩ := hlv r hr
    rw [h3]
    simp
  have hput : ∀ (A : Type) (f : Int → Option A) t, put f ts none t = if t = ts then none else f t := fun _ _ _ => rfl
  have hd : (freePar m p >>= fun m2 => (.ok { m2 with poses := put m2.poses ts none } : Except Fault St)) >>= (fun m1 => deleteView m1 ts) =
      .ok { m with par := fun x => if x = p then false else m.par x, poses := put m.poses ts none, views := put m.views ts none, res := fun x => if x ∈ l then none else m.res x } := by
    rw [hfp]
    show deleteView { m with par := fun x => if x = p then false else m.par x, poses := put m.poses ts none } ts = _
    unfold deleteView
    cases hv : m.views ts with
    | none =>
      rw [hv] at hl
      simp only [Option.getD_none] at hl
      subst hl
      have : put m.views ts none = m.views := by
        funext t
        rw [hput]
        by_cases ht : t = ts
        · rw [if_pos ht, ht, hv]
        · rw [if_neg ht]
      rw [this]
      simp [hv]
    | some l' =>
      rw [hv] at hl
      simp only [Option.getD_some] at hl
      subst hl
      simp only [hv]
      have hfa := freeRes_all l' { m with par := fun x => if x = p then false else m.par x, poses := put m.poses ts none } hln hres
      rw [hfa]
      rfl
  have hne : ∀ t q, t ≠ ts → m.poses t = some q → q ≠ p := by
    rintro t q ht hq rfl
    exact ht (h.inj t ts q hq hp)
  have hcne : ∀ x, IsCam m x → x ≠ p := by
    rintro x hx rfl
    exact h.sep ts x hp hx
  have hpose : ∀ t q, put m.poses ts none t = some q → t ≠ ts ∧ m.poses t = some q := by
    intro t q hq
    rw [hput] at hq
    by_cases ht : t = ts
    · rw [if_pos ht] at hq; cases hq
    · rw [if_neg ht] at hq; exact ⟨ht, hq⟩
  have hview : ∀ t l', put m.views ts none t = some l' → t ≠ ts ∧ m.views t = some l' := by
    intro t q hq
    rw [hput] at hq
    by_cases ht : t = ts
    · rw [if_pos ht] at hq; cases hq
    · rw [if_neg ht] at hq; exact ⟨ht, hq⟩
  have hpose' : ∀ t q, t ≠ ts → m.poses t = some q → put m.poses ts none t = some q := by
    intro t q ht hq; rw [hput, if_neg ht, hq]
  have hview' : ∀ t l', t ≠ ts → m.views t = some l' → put m.views ts none t = some l' := by
    intro t q ht hq; rw [hput, if_neg ht, hq]
  have hof : ∀ t r, t ≠ ts → OfView m t r → OfView { m with par := fun x => if x = p then false else m.par x, poses := put m.poses ts none, views := put m.views ts none, res := fun x => if x ∈ l then none else m.res x } t r := by
    intro t r ht hv
    have hrl : r ∉ l := fun hr => ht (h.of_unique hv (hlv r hr))
    obtain ⟨q, j, a, b, h1, h2, h3⟩ := hv
    exact ⟨q, j, a, b, hpose' t q ht h1, h2, by dsimp only; rw [if_neg hrl, h3]⟩
  refine ⟨_, hd, ⟨⟨?_, ?_, ?_, ?_, ?_, ?_, ?_, ?_, ?_, ?_, ?_, ?_, ?_⟩, ?_, h.gpr⟩, ?_⟩
  · intro j a b hj
    obtain ⟨⟨h1, h2⟩, h3, h4⟩ := h.cam j a b hj
    refine ⟨⟨?_, h2⟩, ?_, h4⟩
    · dsimp only; rw [if_neg (hcne _ ⟨j, a, b, hj, .inl rfl⟩), h1]
    · dsimp only; rw [if_neg (hcne _ ⟨j, a, b, hj, .inr rfl⟩), h3]
  · intro t q hq
    obtain ⟨h1, h2⟩ := hpose t q hq
    dsimp only
    rw [if_neg (hne t q h1 h2), h.pose t q h2]
  · intro t l' hl'
    obtain ⟨h1, h2⟩ := hview t l' hl'
    obtain ⟨q, hq⟩ := h.vpose t l' h2
    exact ⟨q, hpose' t q h1 hq⟩
  · intro t t' q hq hq'
    exact h.inj t t' q (hpose t q hq).2 (hpose t' q hq').2
  · intro t q hq
    exact h.sep t q (hpose t q hq).2
  · intro x hx
    rcases h.pp x hx with hc | ⟨t, ht⟩
    · exact .inl hc
    · refine .inr ⟨t, hpose' t x ?_ ht⟩
      rintro rfl
      exact hpp (by rw [Option.some.inj (hp.symm.trans ht)]; exact hx)
  · intro t l' hl' r hr
    obtain ⟨h1, h2⟩ := hview t l' hl'
    exact hof t r h1 (h.vres t l' h2 r hr)
  · intro t l' q hl' hq hqp r hr
    obtain ⟨h1, h2⟩ := hview t l' hl'
    exact h.vpr t l' q h2 (hpose t q hq).2 hqp r hr
  · intro t l' hl'
    exact h.vnodup t l' (hview t l' hl').2
  · intro r hr
    rcases h.pr r hr with ⟨t, h1, h2⟩ | hg
    · have ht : t ≠ ts := by
        rintro rfl
        exact hpp (h2 p hp)
      exact .inl ⟨t, hof t r ht h1, fun q hq => h2 q (hpose t q hq).2⟩
    · exact .inr hg
  · intro g hg
    obtain ⟨ps, h1, h2⟩ := h.marg g hg
    refine ⟨ps, ?_, h2⟩
    dsimp only
    rw [if_neg (fun hgl => h.of_marg (hlv g hgl) hg), h1]
  · intro x hx
    dsimp only at hx ⊢
    by_cases hxp : x = p
    · rw [if_pos hxp] at hx; cases hx
    · rw [if_neg hxp] at hx; exact h.parFresh x hx
  · intro r hr
    dsimp only at hr ⊢
    by_cases hrl : r ∈ l
    · rw [if_pos hrl] at hr; exact absurd rfl hr
    · rw [if_neg hrl] at hr; exact h.resFresh r hr
  · intro t l' q hl' hq
    obtain ⟨h1, h2⟩ := hview t l' hl'
    exact h.vpp t l' q h1 h2 (hpose t q hq).2
  · intro ho
    constructor
    · intro x hx
      dsimp only at hx
      by_cases hxp : x = p
      · rw [if_pos hxp] at hx; cases hx
      · rw [if_neg hxp] at hx
        rcases ho.par x hx with hc | ⟨t, ht⟩
        · exact .inl hc
        · refine .inr ⟨t, hpose' t x ?_ ht⟩
          rintro rfl
          exact hxp (Option.some.inj (ht.symm.trans hp))
    · intro r hr
      dsimp only at hr
      by_cases hrl : r ∈ l
      · rw [if_pos hrl] at hr; exact absurd rfl hr
      · rw [if_neg hrl] at hr
        rcases ho.res r hr with ⟨t, l', h1, h2⟩ | hg
        · refine .inl ⟨t, l', hview' t l' ?_ h1, h2⟩
          rintro rfl
          rw [h1] at hl
          simp only [Option.getD_some] at hl
          exact hrl (by rw [← hl]; exact h2)
        · exact .inr hg

theorem removeView_full {m : St} {ts : Int} (h : Semi m ts) : ∃ m', removeView m ts = .ok m' ∧ Full m' ∧ (Own m → Own m') := by
  unfold removeView removePose
  cases hp : m.poses ts with
  | none =>
    have hv : m.views ts = none := by
      cases hv : m.views ts with
      | none => rfl
      | some l =>
        obtain ⟨p, hp'⟩ := h.vpose ts l hv
        rw [hp] at hp'
        cases hp'
    refine ⟨m, ?_, ⟨h.toInv, ?_, h.gpr⟩, id⟩
    · show deleteView m ts = _
      unfold deleteView
      rw [hv]
    · intro t l q hl hq
      refine h.vpp t l q ?_ hl hq
      rintro rfl
      rw [hv] at hl
      cases hl
  | some p =>
    dsimp only
    by_cases hpp : p ∈ m.pp
    · obtain ⟨m1, h1, h2, h3, h4, h5, h6, e1, e2, e3, e4, e5, e6, e7, e8⟩ := removeParam_inv h.toInv hp hpp
      rw [if_pos hpp, h1]
      have hs : Semi m1 ts := by
        refine ⟨h2, ?_, ?_⟩
        · intro t l q ht hl hq
          rw [e6] at hl
          rw [e5] at hq
          refine h4 q (h.vpp t l q ht hl hq) ?_
          rintro rfl
          exact ht (h.inj t ts q hq hp)
        · intro g hg
          rw [e7] at hg
          exact h5 g hg (h.gpr g hg)
      obtain ⟨m', g1, g2, g3⟩ := gone hs (by rw [e5]; exact hp) h3
      refine ⟨m', g1, g2, fun ho => g3 ⟨?_, ?_⟩⟩
      · intro x hx
        rw [e1] at hx
        unfold IsCam
        rw [e4, e5]
        exact ho.par x hx
      · intro r hr
        rw [e2] at hr
        rw [e6, e7, e8]
        exact ho.res r hr
    · rw [if_neg hpp]
      exact gone h hp hpp

theorem Full.semi {m : St} (h : Full m) (ts : Int) : Semi m ts := ⟨h.toInv, fun t l p _ => h.vpp t l p, h.gpr⟩

theorem dropOutlier_full {m : St} (h : Full m) (ts : Int) (k : Nat) : ∃ m', dropOutlier m ts k = .ok m' ∧ Full m' ∧ (Own m → Own m') := by
  unfold dropOutlier
  cases hk : (m.views ts).bind (fun l => l[k]?) with
  | none => exact ⟨m, rfl, h, id⟩
  | some r =>
    dsimp only
    obtain ⟨l, hl, hlk⟩ := Option.bind_eq_some_iff.mp hk
    have hr : r ∈ l := List.mem_of_getElem? hlk
    obtain ⟨p, hp⟩ := h.vpose ts l hl
    have hv := h.vres ts l hl r hr
    have hrr : m.res r ≠ none := by
      obtain ⟨q, j, a, b, -, -, h3⟩ := hv
      rw [h3]
      simp
    have hpr := h.vpr ts l p hl hp (h.vpp ts l p hl hp) r hr
    have hd : (removeResidual m r >>= fun m1 => freeRes { m1 with views := put m1.views ts ((m1.views ts).map (fun l => l.erase r)) } r) =
        .ok { m with pr := m.pr.filter (fun x => decide (x ≠ r)), views := put m.views ts (some (l.erase r)), res := fun x => if x = r then none else m.res x } := by
      unfold removeResidual
      rw [if_pos hpr]
      show freeRes { m with pr := m.pr.filter (fun x => decide (x ≠ r)), views := put m.views ts ((m.views ts).map (fun l => l.erase r)) } r = _
      rw [hl]
      unfold freeRes
      cases hx : m.res r with
      | none => exact absurd hx hrr
      | some _ => rfl
    have hview : ∀ t l', put m.views ts (some (l.erase r)) t = some l' → (t = ts ∧ l' = l.erase r) ∨ (t ≠ ts ∧ m.views t = some l') := by
      intro t l' hl'
      have hl'' : (if t = ts then some (l.erase r) else m.views t) = some l' := hl'
      by_cases ht : t = ts
      · rw [if_pos ht] at hl''; exact .inl ⟨ht, (Option.some.inj hl'').symm⟩
      · rw [if_neg ht] at hl''; exact .inr ⟨ht, hl''⟩
    have hold : ∀ t l', put m.views ts (some (l.erase r)) t = some l' → ∃ l0, m.views t = some l0 ∧ (∀ x ∈ l', x ∈ l0 ∧ x ≠ r) ∧ l'.Nodup := by
      intro t l' hl'
      rcases hview t l' hl' with ⟨rfl, rfl⟩ | ⟨ht, hl0⟩
      · refine ⟨l, hl, fun x hx => ?_, (h.vnodup _ l hl).erase r⟩
        have := ((h.vnodup _ l hl).mem_erase_iff).mp hx
        exact ⟨this.2, this.1⟩
      · refine ⟨l', hl0, fun x hx => ⟨hx, ?_⟩, h.vnodup t l' hl0⟩
        rintro rfl
        exact ht (h.of_unique (h.vres t l' hl0 x hx) hv)
    have hof : ∀ t x, x ≠ r → OfView m t x → OfView { m with pr := m.pr.filter (fun x => decide (x ≠ r)), views := put m.views ts (some (l.erase r)), res := fun x => if x = r then none else m.res x } t x := by
      rintro t x hx ⟨q, j, a, b, h1, h2, h3⟩
      exact ⟨q, j, a, b, h1, h2, by dsimp only; rw [if_neg hx, h3]⟩
    refine ⟨_, hd, ⟨⟨h.cam, h.pose, ?_, h.inj, h.sep, h.pp, ?_, ?_, ?_, ?_, ?_, h.parFresh, ?_⟩, ?_, ?_⟩, ?_⟩
    · intro t l' hl'
      obtain ⟨l0, h1, -⟩ := hold t l' hl'
      exact h.vpose t l0 h1
    · intro t l' hl' x hx
      obtain ⟨l0, h1, h2, -⟩ := hold t l' hl'
      exact hof t x (h2 x hx).2 (h.vres t l0 h1 x (h2 x hx).1)
    · intro t l' q hl' hq hqp x hx
      obtain ⟨l0, h1, h2, -⟩ := hold t l' hl'
      exact List.mem_filter.mpr ⟨h.vpr t l0 q h1 hq hqp x (h2 x hx).1, by simp [(h2 x hx).2]⟩
    · intro t l' hl'
      obtain ⟨l0, -, -, h3⟩ := hold t l' hl'
      exact h3
    · intro x hx
      obtain ⟨h1, h2⟩ := List.mem_filter.mp hx
      have hxr : x ≠ r := by simpa using h2
      rcases h.pr x h1 with ⟨t, h3, h4⟩ | hg
      · exact .inl ⟨t, hof t x hxr h3, h4⟩
      · exact .inr hg
    · intro g hg
      obtain ⟨ps, h1, h2⟩ := h.marg g hg
      refine ⟨ps, ?_, h2⟩
      dsimp only
      rw [if_neg, h1]
      rintro rfl
      exact h.of_marg hv hg
    · intro x hx
      dsimp only at hx ⊢
      by_cases hxr : x = r
      · rw [if_pos hxr] at hx; exact absurd rfl hx
      · rw [if_neg hxr] at hx; exact h.resFresh x hx
    · intro t l' q hl' hq
      obtain ⟨l0, h1, -⟩ := hold t l' hl'
      exact h.vpp t l0 q h1 hq
    · intro g hg
      refine List.mem_filter.mpr ⟨h.gpr g hg, ?_⟩
      simp only [ne_eq, decide_eq_true_eq]
      rintro rfl
      exact h.of_marg hv hg
    · intro ho
      refine ⟨ho.par, ?_⟩
      intro x hx
      dsimp only at hx
      by_cases hxr : x = r
      · rw [if_pos hxr] at hx; exact absurd rfl hx
      · rw [if_neg hxr] at hx
        rcases ho.res x hx with ⟨t, l0, h1, h2⟩ | hg
        · by_cases ht : t = ts
          · subst ht
            rw [hl] at h1
            cases h1
            exact .inl ⟨t, l.erase r, if_pos rfl, ((h.vnodup _ l hl).mem_erase_iff).mpr ⟨hxr, h2⟩⟩
          · exact .inl ⟨t, l0, (if_neg ht).trans h1, h2⟩
        · exact .inr hg


theorem dropMarg_inv {m : St} (h : Full m) : ∃ pr', dropMarg m = .ok { m with pr := pr' } ∧ Inv { m with pr := pr' } ∧ ∀ r ∈ pr', m.marg ≠ some r := by
  rcases Option.eq_none_or_eq_some m.marg with hg | ⟨g, hg⟩
  · refine ⟨m.pr, ?_, h.toInv, fun r _ => by rw [hg]; simp⟩
    have hd : dropMarg m = .ok m := by unfold dropMarg; rw [hg]
    exact hd
  · refine ⟨m.pr.filter (fun x => decide (x ≠ g)), ?_, ⟨h.cam, h.pose, h.vpose, h.inj, h.sep, h.pp, h.vres, ?_, h.vnodup, ?_, h.marg, h.parFresh, h.resFresh⟩, ?_⟩
    · have hd : dropMarg m = removeResidual m g := by unfold dropMarg; rw [hg]
      rw [hd]
      unfold removeResidual
      rw [if_pos (h.gpr g hg)]
    · intro t l q hl hq hqp r hr
      refine List.mem_filter.mpr ⟨h.vpr t l q hl hq hqp r hr, ?_⟩
      simp only [ne_eq, decide_eq_true_eq]
      rintro rfl
      exact h.of_marg (h.vres t l hl r hr) hg
    · intro r hr
      obtain ⟨h1, h2⟩ := List.mem_filter.mp hr
      exact h.pr r h1
    · intro r hr
      obtain ⟨-, h2⟩ := List.mem_filter.mp hr
      simp only [ne_eq, decide_eq_true_eq] at h2
      rw [hg]
      simp only [ne_eq, Option.some.injEq]
      exact fun he => h2 he.symm

theorem marginalize_full {m : St} (h : Full m) (ts : Int) : ∃ m', marginalize m ts = .ok m' ∧ Full m' ∧ (Own m → Own m') := by
  unfold marginalize
  cases hl : m.views ts with
  | none => exact ⟨m, rfl, h, id⟩
  | some l =>
    obtain ⟨p, hp⟩ := h.vpose ts l hl
    rw [hp]
    dsimp only
    obtain ⟨pr', h1, hi, h2⟩ := dropMarg_inv h
    rw [h1]
    show ∃ m', (margView { m with pr := pr' } l p >>= fun m2 => removeView { m2 with views := put m2.views ts (some []) } ts) = .ok m' ∧ _
    have hrs : ∀ r ∈ l ++ m.marg.toList, ∃ ps, m.res r = some ps ∧ ∀ x ∈ ps, m.par x = true ∧ (x = p ∨ IsCam m x) := by
      intro r hr
      rcases List.mem_append.mp hr with hr | hr
      · obtain ⟨q, j, a, b, e1, e2, e3⟩ := h.vres ts l hl r hr
        have hq : p = q := Option.some.inj (hp.symm.trans e1)
        subst hq
        refine ⟨_, e3, ?_⟩
        intro x hx
        simp only [List.mem_cons, List.not_mem_nil, or_false] at hx
        rcases hx with rfl | rfl | rfl
        · exact ⟨h.pose ts _ hp, .inl rfl⟩
        · have hc : IsCam m x := ⟨j, a, x, e2, .inr rfl⟩
          exact ⟨h.isCam_par hc, .inr hc⟩
        · have hc : IsCam m x := ⟨j, x, b, e2, .inl rfl⟩
          exact ⟨h.isCam_par hc, .inr hc⟩
      · obtain ⟨ps, e1, e2⟩ := h.marg r (by simpa using hr)
        exact ⟨ps, e1, fun x hx => ⟨h.isCam_par (e2 x hx), .inr (e2 x hx)⟩⟩
    have hev : (l ++ m.marg.toList).forM (evalRes { m with pr := pr' }) = .ok () := by
      apply forM_ok
      intro r hr
      obtain ⟨ps, e1, e2⟩ := hrs r hr
      exact clean_eval ⟨ps, e1, fun x hx => (e2 x hx).1⟩
    have hps : ∀ x ∈ ((l ++ m.marg.toList).flatMap (fun r => (m.res r).getD [])).dedup, x = p ∨ IsCam m x := by
      intro x hx
      rw [List.mem_dedup, List.mem_flatMap] at hx
      obtain ⟨r, hr, hx⟩ := hx
      obtain ⟨ps, e1, e2⟩ := hrs r hr
      rw [e1] at hx
      exact (e2 x hx).2
    unfold margView
    dsimp only
    rw [hev]
    generalize hgen : ((l ++ m.marg.toList).flatMap (fun r => (m.res r).getD [])).dedup = ps at *
    obtain ⟨m1, g1, g2, gpp, gpr, e1, e2, e3, e4, e5, e6, e7, e8⟩ : ∃ m1, (if p ∈ ps then removeParam { m with pr := pr' } p else .ok { m with pr := pr' }) = .ok m1 ∧ Inv m1 ∧
        (∀ q ∈ m.pp, q ≠ p → q ∈ m1.pp) ∧ (∀ r ∈ m1.pr, m.marg ≠ some r) ∧ m1.par = m.par ∧ m1.res = m.res ∧ m1.next = m.next ∧ m1.cams = m.cams ∧
        m1.poses = m.poses ∧ m1.views = m.views ∧ m1.kept = m.kept ∧ m1.marg = m.marg := by
      by_cases hpp : p ∈ ps
      · obtain ⟨m1, a1, a2, -, a4, -, a6, b1, b2, b3, b4, b5, b6, b7, b8⟩ := removeParam_inv hi hp (h.vpp ts l p hl hp)
        rw [if_pos hpp]
        exact ⟨m1, a1, a2, a4, fun r hr => h2 r (a6 r hr), b1, b2, b3, b4, b5, b6, b8, b7⟩
      · rw [if_neg hpp]
        exact ⟨_, rfl, hi, fun q hq _ => hq, h2, rfl, rfl, rfl, rfl, rfl, rfl, rfl, rfl⟩
    have hf : (fun _ : Unit => ((if p ∈ ps then removeParam { m with pr := pr' } p else .ok { m with pr := pr' }) >>= fun m1 =>
        (.ok { m1 with res := fun r => if r = m1.next then some (ps.filter (fun x => decide (x ≠ p))) else m1.res r, next := m1.next + 1, marg := some m1.next, kept := m1.kept ++ (l ++ m.marg.toList), pr := m1.next :: m1.pr } : Except Fault St))) =
        fun _ => (.ok { m1 with res := fun r => if r = m1.next then some (ps.filter (fun x => decide (x ≠ p))) else m1.res r, next := m1.next + 1, marg := some m1.next, kept := m1.kept ++ (l ++ m.marg.toList), pr := m1.next :: m1.pr } : Except Fault St) := by
      funext _
      rw [g1]
      rfl
    show ∃ m', ((Except.ok () : Except Fault Unit) >>= _) >>= _ = .ok m' ∧ _
    rw [hf]
    show ∃ m', removeView { m1 with res := fun r => if r = m1.next then some (ps.filter (fun x => decide (x ≠ p))) else m1.res r, next := m1.next + 1, marg := some m1.next, kept := m1.kept ++ (l ++ m.marg.toList), pr := m1.next :: m1.pr, views := put m1.views ts (some []) } ts = .ok m' ∧ _
    have hcam : ∀ x, IsCam m x → IsCam m1 x := by
      rintro x ⟨i, a, b, hx⟩
      exact ⟨i, a, b, by rw [e4]; exact hx⟩
    have hview : ∀ t l', put m1.views ts (some []) t = some l' → (t = ts ∧ l' = []) ∨ (t ≠ ts ∧ m1.views t = some l') := by
      intro t l' hl'
      have hl'' : (if t = ts then some [] else m1.views t) = some l' := hl'
      by_cases ht : t = ts
      · rw [if_pos ht] at hl''; exact .inl ⟨ht, (Option.some.inj hl'').symm⟩
      · rw [if_neg ht] at hl''; exact .inr ⟨ht, hl''⟩
    have hres : ∀ r ps', m1.res r = some ps' → (if r = m1.next then some (ps.filter (fun x => decide (x ≠ p))) else m1.res r) = some ps' := by
      intro r ps' hr
      rw [if_neg, hr]
      have := g2.resFresh r (by rw [hr]; simp)
      omega
    have hof : ∀ t r, OfView m1 t r → OfView { m1 with res := fun r => if r = m1.next then some (ps.filter (fun x => decide (x ≠ p))) else m1.res r, next := m1.next + 1, marg := some m1.next, kept := m1.kept ++ (l ++ m.marg.toList), pr := m1.next :: m1.pr, views := put m1.views ts (some []) } t r := by
      rintro t r ⟨q, j, a, b, c1, c2, c3⟩
      exact ⟨q, j, a, b, c1, c2, hres r _ c3⟩
    have hs : Semi { m1 with res := fun r => if r = m1.next then some (ps.filter (fun x => decide (x ≠ p))) else m1.res r, next := m1.next + 1, marg := some m1.next, kept := m1.kept ++ (l ++ m.marg.toList), pr := m1.next :: m1.pr, views := put m1.views ts (some []) } ts := by
      refine ⟨⟨g2.cam, g2.pose, ?_, g2.inj, g2.sep, g2.pp, ?_, ?_, ?_, ?_, ?_, ?_, ?_⟩, ?_, ?_⟩
      · intro t l' hl'
        rcases hview t l' hl' with ⟨rfl, rfl⟩ | ⟨-, hl0⟩
        · exact ⟨p, by rw [← hp, ← e5]⟩
        · exact g2.vpose t l' hl0
      · intro t l' hl' r hr
        rcases hview t l' hl' with ⟨rfl, rfl⟩ | ⟨-, hl0⟩
        · cases hr
        · exact hof t r (g2.vres t l' hl0 r hr)
      · intro t l' q hl' hq hqp r hr
        rcases hview t l' hl' with ⟨rfl, rfl⟩ | ⟨-, hl0⟩
        · cases hr
        · exact List.mem_cons_of_mem _ (g2.vpr t l' q hl0 hq hqp r hr)
      · intro t l' hl'
        rcases hview t l' hl' with ⟨rfl, rfl⟩ | ⟨-, hl0⟩
        · simp
        · exact g2.vnodup t l' hl0
      · intro r hr
        rcases List.mem_cons.mp hr with rfl | hr
        · exact .inr rfl
        · rcases g2.pr r hr with ⟨t, c1, c2⟩ | hg
          · exact .inl ⟨t, hof t r c1, c2⟩
          · rw [e8] at hg
            exact absurd hg (gpr r hr)
      · intro g hg
        have hg' : m1.next = g := Option.some.inj hg
        subst hg'
        refine ⟨_, if_pos rfl, ?_⟩
        intro x hx
        obtain ⟨c1, c2⟩ := List.mem_filter.mp hx
        simp only [ne_eq, decide_eq_true_eq] at c2
        exact hcam x ((hps x c1).resolve_left c2)
      · intro x hx
        exact Nat.lt_succ_of_lt (g2.parFresh x hx)
      · intro r hr
        show r < m1.next + 1
        by_cases hn : r = m1.next
        · omega
        · have := g2.resFresh r (by intro h0; exact hr (by show (if r = m1.next then _ else m1.res r) = none; rw [if_neg hn, h0]))
          omega
      · intro t l' q ht hl' hq
        rcases hview t l' hl' with ⟨ht', -⟩ | ⟨-, hl0⟩
        · exact absurd ht' ht
        · have hq' : m1.poses t = some q := hq
          rw [e6] at hl0
          rw [e5] at hq'
          refine gpp q (h.vpp t l' q hl0 hq') ?_
          rintro rfl
          exact ht (h.inj t ts q hq' hp)
      · intro g hg
        have hg' : m1.next = g := Option.some.inj hg
        rw [← hg']
        exact List.mem_cons_self
    obtain ⟨m', r1, r2, r3⟩ := removeView_full hs
    refine ⟨m', r1, r2, fun ho => r3 ⟨?_, ?_⟩⟩
    · intro x hx
      have hx' : m.par x = true := by rw [← e1]; exact hx
      rcases ho.par x hx' with hc | ⟨t, ht⟩
      · exact .inl (hcam x hc)
      · exact .inr ⟨t, by show m1.poses t = _; rw [e5]; exact ht⟩
    · intro r hr
      have hr' : (if r = m1.next then some (ps.filter (fun x => decide (x ≠ p))) else m1.res r) ≠ none := hr
      by_cases hn : r = m1.next
      · exact .inr (.inl (by rw [hn]))
      · rw [if_neg hn, e2] at hr'
        rcases ho.res r hr' with ⟨t, l', c1, c2⟩ | hg | hk
        · by_cases ht : t = ts
          · subst ht
            rw [hl] at c1
            cases c1
            exact .inr (.inr (List.mem_append_right _ (List.mem_append_left _ c2)))
          · refine .inl ⟨t, l', ?_, c2⟩
            show (if t = ts then some [] else m1.views t) = _
            rw [if_neg ht, e6]
            exact c1
        · exact .inr (.inr (List.mem_append_right _ (List.mem_append_right _ (by rw [hg]; simp))))
        · exact .inr (.inr (List.mem_append_left _ (by rw [e7]; exact hk)))


/-! ### Owners of what is added -/

theorem addCamera_own {m : St} (h : Own m) {i : Int} (hi : m.cams i = none) : Own (addCamera m i) := by
  refine ⟨?_, h.res⟩
  intro x hx
  have hcs : ∀ j, (addCamera m i).cams j = if j = i then some (m.next, m.next + 1) else m.cams j := fun _ => rfl
  have hx' : (if x = m.next ∨ x = m.next + 1 then true else freed m.par (m.cams i) x) = true := hx
  by_cases hn : x = m.next ∨ x = m.next + 1
  · exact .inl ⟨i, _, _, by rw [hcs, if_pos rfl], hn⟩
  · rw [if_neg hn, hi] at hx'
    rcases h.par x hx' with ⟨j, a, b, hj, hab⟩ | ht
    · refine .inl ⟨j, a, b, ?_, hab⟩
      rw [hcs, if_neg, hj]
      rintro rfl
      rw [hi] at hj
      cases hj
    · exact .inr ht

theorem addPose_own {m : St} (h : Own m) (ts : Int) : Own (addPose m ts) ∧ (addPose m ts).views = m.views := by
  unfold addPose
  cases hp : m.poses ts with
  | some p => exact ⟨h, rfl⟩
  | none =>
    refine ⟨⟨?_, h.res⟩, rfl⟩
    intro x hx
    have hx' : (if x = m.next then true else m.par x) = true := hx
    by_cases hn : x = m.next
    · exact .inr ⟨ts, by rw [hn]; exact if_pos rfl⟩
    · rw [if_neg hn] at hx'
      rcases h.par x hx' with hc | ⟨t, ht⟩
      · exact .inl hc
      · refine .inr ⟨t, (if_neg ?_).trans ht⟩
        rintro rfl
        rw [hp] at ht
        cases ht

theorem addParam_own {m : St} (h : Own m) (p : Nat) : Own (addParam m p) ∧ (addParam m p).views = m.views := by
  unfold addParam
  split_ifs
  · exact ⟨h, rfl⟩
  · exact ⟨⟨h.par, h.res⟩, rfl⟩

/-- While the residuals of a view are made. -/
def MidOwn (vs : Int → Option (List Nat)) (s : St × List Nat) : Prop :=
  (∀ x, s.1.par x = true → IsCam s.1 x ∨ ∃ ts, s.1.poses ts = some x) ∧
    (∀ r, s.1.res r ≠ none → ((∃ ts l, s.1.views ts = some l ∧ r ∈ l) ∨ s.1.marg = some r ∨ r ∈ s.1.kept) ∨ r ∈ s.2) ∧ s.1.views = vs

theorem addResidual_own {vs : Int → Option (List Nat)} {p : Nat} {s : St × List Nat} (h : MidOwn vs s) (i : Int) : MidOwn vs (addResidual p s i) := by
  obtain ⟨m, l⟩ := s
  unfold addResidual
  cases hc : m.cams i with
  | none => exact h
  | some ab =>
    refine ⟨h.1, ?_, h.2.2⟩
    intro r hr
    have hr' : (if r = m.next then some [p, ab.2, ab.1] else m.res r) ≠ none := hr
    by_cases hn : r = m.next
    · exact .inr (List.mem_append_right _ (by rw [hn]; simp))
    · rw [if_neg hn] at hr'
      rcases h.2.1 r hr' with h1 | h1
      · exact .inl h1
      · exact .inr (List.mem_append_left _ h1)

theorem fold_own {vs : Int → Option (List Nat)} {p : Nat} : ∀ (c : List Int) (s : St × List Nat), MidOwn vs s → MidOwn vs (c.foldl (addResidual p) s)
  | [], _, h => h
  | i :: c, s, h => fold_own c _ (addResidual_own h i)

theorem addView_own {m m' : St} (h : Own m) {ts : Int} {c : List Int} (hv : m.views ts = none) (hm : addView m ts c = .ok m') : Own m' := by
  obtain ⟨p, hp⟩ := addPose_poses m ts
  have h1 := addPose_own h ts
  have h2 := addParam_own h1.1 p
  have h3 : MidOwn m.views (addParam (addPose m ts) p, []) := ⟨h2.1.par, fun r hr => .inl (h2.1.res r hr), h2.2.trans h1.2⟩
  obtain ⟨g1, g2, g3⟩ := fold_own (p := p) c _ h3
  unfold addView at hm
  simp only [hp] at hm
  cases hm
  refine ⟨g1, ?_⟩
  intro r hr
  rcases g2 r hr with (⟨t, l, e1, e2⟩ | e) | e
  · refine .inl ⟨t, l, (if_neg ?_).trans e1, e2⟩
    rintro rfl
    rw [g3, hv] at e1
    cases e1
  · exact .inr e
  · exact .inl ⟨ts, _, if_pos rfl, e⟩

/-! ### The cameras -/

theorem bind_cams {m : St} {x : Except Fault St} {f : St → Except Fault St} (hx : ∀ y, x = .ok y → y.cams = m.cams)
    (hf : ∀ y z, y.cams = m.cams → f y = .ok z → z.cams = m.cams) : ∀ z, (x >>= f) = .ok z → z.cams = m.cams := by
  intro z hz
  cases x with
  | error e => cases hz
  | ok y => exact hf y z (hx y rfl) hz

theorem removeParam_cams {m y : St} {p : Nat} (h : removeParam m p = .ok y) : y.cams = m.cams := by
  unfold removeParam at h
  split_ifs at h
  cases h
  rfl

theorem removeResidual_cams {m y : St} {p : Nat} (h : removeResidual m p = .ok y) : y.cams = m.cams := by
  unfold removeResidual at h
  split_ifs at h
  cases h
  rfl

theorem freeRes_cams {m y : St} {p : Nat} (h : freeRes m p = .ok y) : y.cams = m.cams := by
  unfold freeRes at h
  split at h
  · cases h
  · cases h
    rfl

theorem freePar_cams {m y : St} {p : Nat} (h : freePar m p = .ok y) : y.cams = m.cams := by
  unfold freePar at h
  split_ifs at h
  cases h
  rfl

theorem freeAll_cams : ∀ (l : List Nat) (m y : St), l.foldlM freeRes m = .ok y → y.cams = m.cams
  | [], m, y, h => by cases h; rfl
  | r :: l, m, y, h => by
    rw [List.foldlM_cons] at h
    exact bind_cams (m := m) (fun y hy => freeRes_cams hy) (fun y z hy hz => (freeAll_cams l y z hz).trans hy) y h

theorem removeView_cams {m y : St} {ts : Int} (h : removeView m ts = .ok y) : y.cams = m.cams := by
  refine bind_cams (m := m) ?_ ?_ y h
  · intro y hy
    unfold removePose at hy
    split at hy
    · cases hy; rfl
    · refine bind_cams (m := m) ?_ ?_ y hy
      · intro y hy
        split_ifs at hy
        · exact removeParam_cams hy
        · cases hy; rfl
      · intro y z hy hz
        refine bind_cams (m := m) (fun w hw => (freePar_cams hw).trans hy) ?_ z hz
        intro w z hw hz
        cases hz
        exact hw
  · intro y z hy hz
    unfold deleteView at hz
    split at hz
    · cases hz; exact hy
    · refine bind_cams (m := m) (fun w hw => (freeAll_cams _ _ _ hw).trans hy) ?_ z hz
      intro w z hw hz
      cases hz
      exact hw

theorem addResidual_cams (p : Nat) : ∀ (c : List Int) (s : St × List Nat), (c.foldl (addResidual p) s).1.cams = s.1.cams
  | [], _ => rfl
  | i :: c, s => by
    rw [List.foldl_cons, addResidual_cams p c]
    unfold addResidual
    split <;> rfl

/-- Only `add_camera` changes the cameras. -/
theorem step_cams {m y : St} {op : Op} (h : step m op = .ok y) (j : Int) :
    y.cams j = match op with | .camera i => if j = i then some (m.next, m.next + 1) else m.cams j | _ => m.cams j := by
  cases op with
  | camera i => cases h; rfl
  | view ts c =>
    change addView m ts c = .ok y at h
    unfold addView at h
    dsimp only at h
    split at h
    · cases h
    · cases h
      dsimp only
      rw [addResidual_cams]
      unfold addParam addPose
      split_ifs <;> split <;> rfl
  | remove ts => exact congrFun (removeView_cams h) j
  | outlier ts k =>
    change dropOutlier m ts k = .ok y at h
    unfold dropOutlier at h
    split at h
    · cases h; rfl
    · refine congrFun (bind_cams (m := m) (fun y hy => removeResidual_cams hy) ?_ y h) j
      intro y z hy hz
      exact (freeRes_cams hz).trans hy
  | marginalize ts =>
    change marginalize m ts = .ok y at h
    unfold marginalize at h
    split at h
    · cases h; rfl
    · split at h
      · cases h
      · refine congrFun (bind_cams (m := m) ?_ ?_ y h) j
        · intro y hy
          unfold dropMarg at hy
          split at hy
          · cases hy; rfl
          · exact removeResidual_cams hy
        · intro y z hy hz
          refine bind_cams (m := m) ?_ ?_ z hz
          · intro w hw
            unfold margView at hw
            dsimp only at hw
            cases hx : (_ : List Nat).forM (evalRes y) with
            | error e => rw [hx] at hw; cases hw
            | ok u =>
              rw [hx] at hw
              refine bind_cams (m := m) ?_ ?_ w hw
              · intro v hv
                split_ifs at hv
                · exact (removeParam_cams hv).trans hy
                · cases hv; exact hy
              · intro v u hv hu
                cases hu
                exact hv
          · intro w z hw hz
            exact (removeView_cams hz).trans hw
  | solve =>
    change solve m = .ok y at h
    unfold solve at h
    split_ifs at h
    cases hx : m.pr.forM (evalRes m) with
    | error e => rw [hx] at h; cases h
    | ok u => rw [hx] at h; cases h; rfl

/-! ### Theorems -/

theorem step_full {m : St} (h : Full m) (op : Op) (hop : ∀ i, op = .camera i → m.cams i = none) :
    ∃ m', step m op = .ok m' ∧ Full m' ∧ ((∀ ts c, op = .view ts c → m.views ts = none) → Own m → Own m') := by
  cases op with
  | camera i => exact ⟨_, rfl, addCamera_full h (hop i rfl), fun _ ho => addCamera_own ho (hop i rfl)⟩
  | view ts c =>
    obtain ⟨m', h1, h2⟩ := addView_full h ts c
    exact ⟨m', h1, h2, fun hv ho => addView_own ho (hv ts c rfl) h1⟩
  | remove ts =>
    obtain ⟨m', h1, h2, h3⟩ := removeView_full (h.semi ts)
    exact ⟨m', h1, h2, fun _ => h3⟩
  | outlier ts k =>
    obtain ⟨m', h1, h2, h3⟩ := dropOutlier_full h ts k
    exact ⟨m', h1, h2, fun _ => h3⟩
  | marginalize ts =>
    obtain ⟨m', h1, h2, h3⟩ := marginalize_full h ts
    exact ⟨m', h1, h2, fun _ => h3⟩
  | solve => exact ⟨m, clean_solve h.clean, h, fun _ => id⟩

theorem new_full : Full St.new := by
  refine ⟨⟨?_, ?_, ?_, ?_, ?_, ?_, ?_, ?_, ?_, ?_, ?_, ?_, ?_⟩, ?_, ?_⟩ <;> intros <;> simp_all [St.new]

/-- A view is only added for a time that has none. -/
def Fresh : St → List Op → Prop
  | _, [] => True
  | m, op :: ops => (∀ ts c, op = .view ts c → m.views ts = none) ∧ ∀ m', step m op = .ok m' → Fresh m' ops

theorem run_full : ∀ (ops : List Op) (m : St), Full m → (added ops).Nodup → (∀ i ∈ added ops, m.cams i = none) →
    ∃ m', ops.foldlM step m = .ok m' ∧ Full m' ∧ (Fresh m ops → Own m → Own m') ∧
      ∀ i, (m.cams i ≠ none ∨ i ∈ added ops) → m'.cams i ≠ none
  | [], m, h, _, _ => ⟨m, rfl, h, fun _ => id, fun i hi => hi.resolve_right (by simp [added])⟩
  | op :: ops, m, h, hn, hc => by
    have hop : ∀ i, op = .camera i → m.cams i = none := by
      rintro i rfl
      exact hc i (by simp [added])
    obtain ⟨m1, h1, h2, h3⟩ := step_full h op hop
    have hcams := fun j => step_cams h1 j
    have hn' : (added ops).Nodup := by
      cases op with
      | camera i => exact (List.nodup_cons.mp hn).2
      | _ => exact hn
    have hc' : ∀ i ∈ added ops, m1.cams i = none := by
      intro i hi
      rw [hcams i]
      cases op with
      | camera k =>
        dsimp only
        rw [if_neg]
        · exact hc i (List.mem_cons_of_mem _ hi)
        · rintro rfl
          exact (List.nodup_cons.mp hn).1 hi
      | _ => exact hc i hi
    obtain ⟨m', g1, g2, g3, g4⟩ := run_full ops m1 h2 hn' hc'
    refine ⟨m', ?_, g2, fun hf ho => g3 (hf.2 m1 h1) (h3 hf.1 ho), ?_⟩
    · rw [List.foldlM_cons, h1]
      exact g1
    · intro i hi
      apply g4
      by_cases hi' : i ∈ added ops
      · exact .inr hi'
      left
      rw [hcams i]
      cases op with
      | camera k =>
        dsimp only
        by_cases hik : i = k
        · rw [if_pos hik]; simp
        · rw [if_neg hik]
          refine hi.resolve_right ?_
          intro hm
          rcases List.mem_cons.mp hm with h0 | h0
          · exact hik h0
          · exact hi' h0
      | _ => exact hi.resolve_right hi'

/-- **C152, memory safety.**  Whatever is done with a calibrator to which no camera is added twice, nothing that was freed is used or freed
again, no residual or parameter that is not in the problem is removed from it, and all that the problem points to is allocated. -/
theorem C152_safe (ops : List Op) (h : (added ops).Nodup) : ∃ m, exec ops = .ok m ∧ Clean m := by
  obtain ⟨m, h1, h2, -⟩ := run_full ops St.new new_full h (fun _ _ => rfl)
  exact ⟨m, h1, h2.clean⟩

/-- **C152, what is owned is in the problem.**  The parameters of every camera are in the problem; so is the pose of every view, every residual
of a view, which points to that pose and the parameters of a camera, and the marginalisation residual. -/
theorem C152_complete (ops : List Op) (h : (added ops).Nodup) (m : St) (hm : exec ops = .ok m) :
    (∀ i a b, m.cams i = some (a, b) → a ∈ m.pp ∧ b ∈ m.pp) ∧
    (∀ ts l, m.views ts = some l → ∃ p, m.poses ts = some p ∧ p ∈ m.pp ∧ l.Nodup ∧ ∀ r ∈ l, r ∈ m.pr ∧
      ∃ i a b, m.cams i = some (a, b) ∧ m.res r = some [p, b, a]) ∧
    (∀ g, m.marg = some g → g ∈ m.pr) := by
  obtain ⟨m', h1, h2, -⟩ := run_full ops St.new new_full h (fun _ _ => rfl)
  have h1' : exec ops = .ok m' := h1
  rw [hm] at h1'
  cases h1'
  refine ⟨fun i a b hi => ⟨(h2.cam i a b hi).1.2, (h2.cam i a b hi).2.2⟩, ?_, h2.gpr⟩
  intro ts l hl
  obtain ⟨p, hp⟩ := h2.vpose ts l hl
  have hpp := h2.vpp ts l p hl hp
  refine ⟨p, hp, hpp, h2.vnodup ts l hl, ?_⟩
  intro r hr
  obtain ⟨q, j, a, b, e1, e2, e3⟩ := h2.vres ts l hl r hr
  have hq : q = p := Option.some.inj (e1.symm.trans hp)
  subst hq
  exact ⟨h2.vpr ts l q hl hp hpp r hr, j, a, b, e2, e3⟩

/-- **C152, no leaks.**  If in addition no view is added for a time that has one, every allocated parameter is that of a camera or the pose of
a time, and every allocated residual belongs to a view, is the marginalisation residual or is kept by it. -/
theorem C152_no_leak (ops : List Op) (h : (added ops).Nodup) (hf : Fresh St.new ops) (m : St) (hm : exec ops = .ok m) :
    (∀ x, m.par x = true → (∃ i a b, m.cams i = some (a, b) ∧ (x = a ∨ x = b)) ∨ ∃ ts, m.poses ts = some x) ∧
    (∀ r, m.res r ≠ none → (∃ ts l, m.views ts = some l ∧ r ∈ l) ∨ m.marg = some r ∨ r ∈ m.kept) := by
  obtain ⟨m', h1, -, h3, -⟩ := run_full ops St.new new_full h (fun _ _ => rfl)
  have h1' : exec ops = .ok m' := h1
  rw [hm] at h1'
  cases h1'
  have ho := h3 hf ⟨fun x hx => (by cases hx), fun r hr => absurd rfl hr⟩
  exact ⟨ho.par, ho.res⟩

/-- **C152, refuted for a camera that is added twice.**  The parameters of the first are freed, but the problem still points to them, so that the
next solution reads freed memory. -/
theorem C152_camera_refuted (ops : List Op) (h : (added ops).Nodup) (i : Int) (hi : i ∈ added ops) :
    (∃ m, exec (ops ++ [.camera i]) = .ok m ∧ ¬ Clean m) ∧ exec (ops ++ [.camera i, .solve]) = .error .oob := by
  obtain ⟨m, h1, h2, -, h4⟩ := run_full ops St.new new_full h (fun _ _ => rfl)
  cases hc : m.cams i with
  | none => exact absurd hc (h4 i (.inr hi))
  | some ab =>
    obtain ⟨a, b⟩ := ab
    obtain ⟨⟨ha, hap⟩, -, -⟩ := h2.cam i a b hc
    have hlt := h2.parFresh a ha
    have hpar : (addCamera m i).par a = false := by
      show (if a = m.next ∨ a = m.next + 1 then true else freed m.par (m.cams i) a) = false
      rw [if_neg (by omega), hc]
      simp [freed]
    have hmem : a ∈ (addCamera m i).pp := List.mem_cons_of_mem _ (List.mem_cons_of_mem _ hap)
    have hs : solve (addCamera m i) = .error .oob := by
      unfold solve
      rw [if_neg]
      intro hall
      rw [List.all_eq_true.mp hall a hmem] at hpar
      cases hpar
    refine ⟨⟨addCamera m i, ?_, ?_⟩, ?_⟩
    · show (ops ++ [Op.camera i]).foldlM step St.new = _
      rw [List.foldlM_append, h1]
      rfl
    · intro hcl
      rw [hcl.1 a hmem] at hpar
      cases hpar
    · show (ops ++ [Op.camera i, .solve]).foldlM step St.new = _
      rw [List.foldlM_append, h1]
      show (solve (addCamera m i) >>= fun m' => (.ok m' : Except Fault St)) = _
      rw [hs]
      rfl

/-- A view is added for a time that has one, and removed. -/
def leaking : List Op := [.camera 0, .view 5 [0, 0], .view 5 [0], .remove 5]

/-- **C152, refuted for views that are added twice.**  The residuals of the first are never freed. -/
theorem C152_leak_refuted : ∃ m, (added leaking).Nodup ∧ exec leaking = .ok m ∧ m.res 3 ≠ none ∧ m.res 4 ≠ none ∧ m.pr = [] ∧ m.marg = none ∧ m.kept = [] ∧
    ∀ ts, m.views ts = none := by
  refine ⟨_, by decide, rfl, by decide, by decide, rfl, rfl, rfl, ?_⟩
  intro ts
  by_cases h : ts = 5
  · subst h; rfl
  · show (if ts = 5 then none else if ts = 5 then _ else if ts = 5 then _ else none) = none
    simp [h]

/-! ### Witnesses -/

/-- Two cameras, three views, an outlier, a marginalisation, a view removed and added again. -/
def demo : List Op :=
  [.camera 0, .camera 1, .view 5 [0, 0, 1], .view 6 [1, 7], .solve, .outlier 5 1, .view 8 [0], .marginalize 5, .solve, .remove 6, .view 6 [1], .marginalize 6,
    .solve]

example : ∃ m, exec demo = .ok m ∧ Clean m := C152_safe demo (by decide)

example : ∃ m, exec demo = .ok m ∧ m.pr.length = 2 ∧ m.pp.length = 5 ∧ m.kept.length = 4 := ⟨_, rfl, rfl, rfl, rfl⟩

example : exec (demo ++ [.camera 1, .solve]) = .error .oob := (C152_camera_refuted demo (by decide) 1 (by decide)).2

theorem fresh_cons {m m1 : St} {op : Op} {ops : List Op} (h : step m op = .ok m1) (hv : ∀ ts c, op = .view ts c → m.views ts = none)
    (hf : Fresh m1 ops) : Fresh m (op :: ops) :=
  ⟨hv, fun m' h' => by rw [h] at h'; cases h'; exact hf⟩

/-- `C152_no_leak` applies when a view is removed before it is added again. -/
example : Fresh St.new [.camera 0, .view 5 [0, 0], .outlier 5 1, .remove 5, .view 5 [0], .marginalize 5, .view 5 [0]] :=
  fresh_cons rfl (by intro _ _ h; cases h) <| fresh_cons rfl (by intro _ _ h; cases h; rfl) <| fresh_cons rfl (by intro _ _ h; cases h) <|
    fresh_cons rfl (by intro _ _ h; cases h) <| fresh_cons rfl (by intro _ _ h; cases h; rfl) <| fresh_cons rfl (by intro _ _ h; cases h) <|
    fresh_cons rfl (by intro _ _ h; cases h; rfl) trivial

end Yac.CamMem
