import Verif.VI.QueryLemmas
import Verif.VI.QuerySpec
import Verif.Num.Props
import Mathlib.Tactic.Linarith
import Mathlib.Tactic.Ring
import Mathlib.Tactic.NormNum

/-!
# C87, C88, C89: cost, outlier rejection and `solve()` of `calib_vi_t`
-/

namespace Yac.VI

open Yac.AprilGrid (Grid)
open Yac.Solver (Problem insSet)

variable {K D : Type} [DecidableEq K]

theorem Hist.wf {env : VEnv K D} {s t : St K D} {as : List (Act K D)} (h : Hist env s as t)
    (hs : WF s) (hd : Distinct s) : WF t ∧ Distinct t := by
  induction h with
  | nil => exact ⟨hs, hd⟩
  | @snoc as t a u _ hr h2 ih =>
    obtain ⟨hw, hdt⟩ := ih
    cases h2 with
    | @call c _ _ hc =>
      refine ⟨?_, hdt.call hc⟩
      cases c with
      | camera i fp fe => exact hw.addCamera hc
      | grid cam g => injection hc with hc; exact hc ▸ hw.addGrid cam g
      | imu ts a w => obtain ⟨b, hb⟩ := call_imu hc; exact hw.addImu hb
      | reset => injection hc with hc; exact hc ▸ hw.reset (hr rfl)
    | @solve rej fac res c _ _ c' ks hc =>
      unfold VI.solve at hc
      simp only at hc
      cases rej with
      | false =>
        simp only [Bool.false_eq_true, if_false, Except.ok.injEq, Prod.mk.injEq] at hc
        obtain ⟨rfl, -⟩ := hc
        exact ⟨hw, hdt⟩
      | true =>
        simp only [if_true] at hc
        obtain ⟨o, h1, h2⟩ := bindOk hc
        simp only [Except.ok.injEq, Prod.mk.injEq] at h2
        obtain ⟨rfl, -⟩ := h2
        exact hw.filterViews hdt h1

theorem Distinct.new (m : Bool) (w : Int) (a b : Bool) : Distinct (St.new m w a b : St K D) := by
  simp [Distinct, St.new]

/-! ### C87 -/

theorem nodup_evaluated (s : St K D) : (evaluated s).Nodup := by
  unfold evaluated
  generalize s.views.flatMap View.evaluated ++ (s.marg.map Prod.snd).toList = l
  have : ∀ (l m : List (Res K)), m.Nodup → (l.foldl (fun l r => insSet r l) m).Nodup := by
    intro l
    induction l with
    | nil => exact fun m hm => hm
    | cons a l ih =>
      intro m hm
      refine ih _ ?_
      show (insSet a m).Nodup
      unfold insSet
      split_ifs with ha
      · exact hm
      · exact List.nodup_append.2 ⟨hm, by simp, fun x hx y hy => by
          simp only [List.mem_singleton] at hy; rintro rfl; exact ha (hy ▸ hx)⟩
  exact this l [] List.nodup_nil

theorem mem_evaluated (s : St K D) (r : Res K) :
    r ∈ evaluated s ↔ (∃ v ∈ s.views, r ∈ v.evaluated) ∨ ∃ id, s.marg = some (id, r) := by
  have : ∀ (l m : List (Res K)), r ∈ l.foldl (fun l r => insSet r l) m ↔ r ∈ m ∨ r ∈ l := by
    intro l
    induction l with
    | nil => simp
    | cons a l ih =>
      intro m
      rw [List.foldl_cons, ih]
      unfold insSet
      split_ifs with ha
      · simp only [List.mem_cons]
        constructor
        · rintro (h | h)
          · exact Or.inl h
          · exact Or.inr (Or.inr h)
        · rintro (h | rfl | h)
          · exact Or.inl h
          · exact Or.inl ha
          · exact Or.inr h
      · simp only [List.mem_append, List.mem_singleton, List.mem_cons]
        tauto
  unfold evaluated
  rw [this]
  simp only [List.not_mem_nil, false_or, List.mem_append, List.mem_flatMap, Option.mem_toList,
    Option.map_eq_some_iff]
  refine or_congr_right ⟨?_, ?_⟩
  · rintro ⟨a, ha, rfl⟩; exact ⟨a.1, ha⟩
  · rintro ⟨id, h⟩; exact ⟨_, h, rfl⟩

theorem mem_evaluated_iff {s : St K D} (h : WF s) (r : Res K) :
    r ∈ evaluated s ↔ r ∈ s.prob.rblocks.map Prod.snd ∧ ¬ Newest s r := by
  rw [mem_evaluated, h.content]
  have hsp := h.linked.spec
  -- the view without a factor is the last one
  have hlast : ∀ v ∈ s.views, v.imu = none → s.views.getLast? = some v := by
    intro v hv hi
    obtain ⟨k, hk, rfl⟩ := List.mem_iff_getElem.1 hv
    rcases Nat.lt_or_ge (k + 1) s.views.length with h1 | h1
    · obtain ⟨n, hn⟩ := hsp.1 k s.views[k] s.views[k + 1] (List.getElem?_eq_getElem hk)
        (List.getElem?_eq_getElem h1)
      rw [hi] at hn
      cases hn
    · have : k = s.views.length - 1 := by omega
      rw [List.getLast?_eq_getElem?, ← this, List.getElem?_eq_getElem hk]
  have heq : ∀ v w f, v ∈ s.views → w ∈ s.views → f ∈ v.fids → f ∈ w.fids → v = w := by
    intro v w f hv hw hfv hfw
    have hn : v.num = w.num := ((h.fids v hv f hfv).1.symm.trans (h.fids w hw f hfw).1)
    have hp := hsp.2.2
    obtain ⟨i, hi, rfl⟩ := List.mem_iff_getElem.1 hv
    obtain ⟨j, hj, rfl⟩ := List.mem_iff_getElem.1 hw
    rw [List.pairwise_iff_getElem] at hp
    rcases Nat.lt_trichotomy i j with hij | hij | hij
    · have := hp i j hi hj hij; omega
    · subst hij; rfl
    · have := hp j i hj hi hij; omega
  constructor
  · rintro (⟨v, hv, hr⟩ | ⟨id, hid⟩)
    · unfold View.evaluated at hr
      cases hi : v.imu with
      | none => rw [hi] at hr; simp at hr
      | some i =>
        rw [hi] at hr
        simp only [List.mem_append, List.mem_map, List.mem_singleton] at hr
        refine ⟨Or.inl ⟨v, hv, ?_⟩, ?_⟩
        · simp only [View.residuals, hi, List.mem_append, List.mem_map, Option.toList_some,
            List.mem_singleton]
          rcases hr with hr | hr
          · exact Or.inl hr
          · exact Or.inr ⟨i, rfl, hr.symm⟩
        · rintro ⟨w, f, hw, hf, rfl⟩
          rcases hr with ⟨g, hg, hgf⟩ | hr
          · injection hgf with hgf
            subst hgf
            have := heq v w g hv (List.mem_of_getLast? hw) hg hf
            subst this
            rw [hsp.2.1 v hw] at hi
            cases hi
          · cases hr
    · refine ⟨Or.inr ⟨id, hid⟩, ?_⟩
      obtain ⟨n, ps, -, -, rfl, -⟩ := (h.marg id r hid).2
      rintro ⟨_, _, _, _, h⟩
      cases h
  · rintro ⟨⟨v, hv, hr⟩ | hr, hnew⟩
    · left
      simp only [View.residuals, List.mem_append, List.mem_map, Option.mem_toList] at hr
      refine ⟨v, hv, ?_⟩
      unfold View.evaluated
      cases hi : v.imu with
      | none =>
        exfalso
        rw [hi] at hr
        rcases hr with ⟨f, hf, rfl⟩ | ⟨i, hi2, -⟩
        · exact hnew ⟨v, f, hlast v hv hi, hf, rfl⟩
        · cases hi2
      | some i =>
        simp only [List.mem_append, List.mem_map, List.mem_singleton]
        rcases hr with hr | ⟨j, hj, rfl⟩
        · exact Or.inl hr
        · rw [hi] at hj
          injection hj with hj
          exact Or.inr (by rw [hj])
    · exact Or.inr hr

theorem cost_fold (ev : Res K → Option (List ℝ)) (l : List (Res K)) (c : ℝ)
    (h : ∀ r ∈ l, (ev r).isSome) :
    l.foldlM (costStep ev) c = .ok (c + halfSquares ev l) := by
  induction l generalizing c with
  | nil => simp [halfSquares, pure, Except.pure]
  | cons r l ih =>
    obtain ⟨x, hx⟩ := Option.isSome_iff_exists.1 (h r (by simp))
    rw [List.foldlM_cons]
    unfold costStep
    rw [hx]
    simp only
    rw [AprilGrid.ok_bind]
    refine (ih _ (fun q hq => h q (by simp [hq]))).trans ?_
    simp only [halfSquares, List.map_cons, List.sum_cons, hx, Option.getD_some, pow_two]
    congr 1
    norm_num
    ring

theorem cost_fatal (ev : Res K → Option (List ℝ)) (l : List (Res K)) (c : ℝ)
    (h : ∃ r ∈ l, ev r = none) : l.foldlM (costStep ev) c = .error .fatal := by
  induction l generalizing c with
  | nil => simp at h
  | cons r l ih =>
    rw [List.foldlM_cons]
    unfold costStep
    cases hx : ev r with
    | none => rfl
    | some x =>
      simp only
      rw [AprilGrid.ok_bind]
      refine ih _ ?_
      obtain ⟨q, hq, hn⟩ := h
      simp only [List.mem_cons] at hq
      rcases hq with rfl | hq
      · rw [hx] at hn; cases hn
      · exact ⟨q, hq, hn⟩

/-- **C87, cost.**  After any history, the cost is half the sum of the squares of the residuals
in the solver problem, except those measured in the newest view.  (That they are missing makes
the English claim false: `C87_newest_refuted`.)  If one of these residuals cannot be evaluated,
the call is fatal. -/
theorem C87_cost_partial (env : VEnv K D) (m : Bool) (w : Int) (fe fd : Bool)
    (as : List (Act K D)) (t : St K D) (h : Hist env (St.new m w fe fd) as t)
    (ev : Res K → Option (List ℝ)) :
    ∃ counted : List (Res K), counted.Nodup ∧
      (∀ r, r ∈ counted ↔ r ∈ t.prob.rblocks.map Prod.snd ∧ ¬ Newest t r) ∧
      ((∀ r ∈ counted, (ev r).isSome) → cost ev t = .ok (halfSquares ev counted)) ∧
      ((∃ r ∈ counted, ev r = none) → cost ev t = .error .fatal) := by
  have hw := (h.wf (WF.new _ _ _ _) (Distinct.new _ _ _ _)).1
  refine ⟨evaluated t, nodup_evaluated t, mem_evaluated_iff hw, ?_, ?_⟩
  · intro he
    unfold cost
    rw [cost_fold ev _ _ he, zero_add]
  · intro he
    exact cost_fatal ev _ _ he

theorem halfSquares_perm (ev : Res K → Option (List ℝ)) {l m : List (Res K)} (h : l.Perm m) :
    halfSquares ev l = halfSquares ev m := by
  unfold halfSquares
  rw [(h.map _).sum_eq]

theorem sum_sq_nonneg (x : List ℝ) : 0 ≤ (x.map (fun a => a ^ 2)).sum := by
  refine List.sum_nonneg ?_
  intro y hy
  obtain ⟨a, -, rfl⟩ := List.mem_map.1 hy
  exact sq_nonneg a

/-- **C87, refuted.**  The cost is less than half the sum of the squares of all residuals of the
problem as soon as one measurement of the newest view has an error that is not zero. -/
theorem C87_newest_refuted (env : VEnv K D) (m : Bool) (w : Int) (fe fd : Bool)
    (as : List (Act K D)) (t : St K D) (h : Hist env (St.new m w fe fd) as t)
    (ev : Res K → Option (List ℝ)) (hev : ∀ r, (ev r).isSome) (v : View K)
    (hv : t.views.getLast? = some v) (f : Fid K) (hf : f ∈ v.fids) (x : List ℝ) (a : ℝ)
    (hx : ev (.fid f) = some x) (ha : a ∈ x) (hne : a ≠ 0) :
    ∃ c, cost ev t = .ok c ∧ c < halfSquares ev (t.prob.rblocks.map Prod.snd) := by
  obtain ⟨hw, -⟩ := h.wf (WF.new _ _ _ _) (Distinct.new _ _ _ _)
  obtain ⟨l, hl, hm, hc, -⟩ := C87_cost_partial env m w fe fd as t h ev
  refine ⟨_, hc fun r _ => hev r, ?_⟩
  have hin : Res.fid f ∈ t.prob.rblocks.map Prod.snd := hw.fid_mem (List.mem_of_getLast? hv) hf
  have hnot : Res.fid f ∉ l := fun hx => ((hm _).1 hx).2 ⟨v, f, hv, hf, rfl⟩
  obtain ⟨rest, hp⟩ : ∃ rest, (t.prob.rblocks.map Prod.snd).Perm ((Res.fid f :: l) ++ rest) := by
    have h1 : ((t.prob.rblocks.map Prod.snd).filter (fun r => decide (r ∈ Res.fid f :: l))).Perm
        (Res.fid f :: l) := by
      rw [List.perm_ext_iff_of_nodup (hw.prob.res.filter _) (List.nodup_cons.2 ⟨hnot, hl⟩)]
      intro r
      rw [List.mem_filter, decide_eq_true_eq]
      refine ⟨fun h => h.2, fun hr => ⟨?_, hr⟩⟩
      simp only [List.mem_cons] at hr
      rcases hr with rfl | hr
      · exact hin
      · exact ((hm r).1 hr).1
    exact ⟨_, (List.filter_append_perm (fun r => decide (r ∈ Res.fid f :: l)) _).symm.trans
      (h1.append_right _)⟩
  rw [halfSquares_perm ev hp]
  unfold halfSquares
  simp only [List.map_append, List.sum_append, List.map_cons, List.sum_cons, hx, Option.getD_some]
  have h1 : 0 < (x.map (fun a => a ^ 2)).sum := by
    have hpos : 0 < a ^ 2 := by positivity
    refine lt_of_lt_of_le hpos ?_
    refine List.single_le_sum ?_ _ (List.mem_map.2 ⟨a, ha, rfl⟩)
    intro y hy
    obtain ⟨b, -, rfl⟩ := List.mem_map.1 hy
    exact sq_nonneg b
  have h2 : 0 ≤ (rest.map (fun r => (((ev r).getD []).map (fun x => x ^ 2)).sum)).sum := by
    refine List.sum_nonneg ?_
    intro y hy
    obtain ⟨r, -, rfl⟩ := List.mem_map.1 hy
    exact sum_sq_nonneg _
  linarith

/-! ### C88 -/

theorem threshold_iff (res : Fid K → ℝ × ℝ) (factor : ℝ) (v : View K) (t : ℝ) :
    threshold res factor v = some t ↔ Limit res factor v t := by
  unfold threshold Limit Num.stddev Num.var Num.mean
  have e : v.fids.map (reprojError res) = v.fids.map (fun f => len (res f)) := rfl
  rw [e]
  generalize v.fids.map (fun f => len (res f)) = l
  have hfold : ∀ (μ : ℝ) (l : List ℝ) (c : ℝ),
      l.foldl (fun s a => s + (a - μ) ^ 2) c = c + (l.map (fun x => (x - μ) ^ 2)).sum := by
    intro μ l
    induction l with
    | nil => simp
    | cons a l ih => intro c; rw [List.foldl_cons, ih]; simp; ring
  by_cases h0 : l.length = 0
  · simp [h0]
  · have hl : (l.length : ℝ) ≠ 0 := by exact_mod_cast h0
    simp only [h0, if_false]
    by_cases h1 : l.length = 1
    · simp [h1]
    · simp only [h1, if_false, Option.map_some, Option.some.injEq, hfold, zero_add]
      have h2 : 2 ≤ l.length := by omega
      constructor
      · rintro rfl
        refine ⟨h2, _, ?_, rfl⟩
        rw [Num.sum_eq]
        field_simp
      · rintro ⟨-, μ, hμ, rfl⟩
        have : Num.sum l / (l.length : ℝ) = μ := by
          rw [Num.sum_eq, ← hμ]; field_simp
        rw [this]

theorem lost_iff (res : Fid K → ℝ × ℝ) (factor : ℝ) (v : View K) (f : Fid K) :
    lost res factor v f = true ↔ Above res factor v f := by
  unfold lost exceeds Above
  cases h : threshold res factor v with
  | none =>
    simp only [Bool.false_eq_true, false_iff, not_exists, not_and]
    intro t ht
    rw [← threshold_iff, h] at ht
    cases ht
  | some t =>
    have : ∀ u, Limit res factor v u ↔ u = t := by
      intro u
      rw [← threshold_iff, h]
      simp [eq_comm]
    simp only [this, exists_eq_left, Bool.or_eq_true, decide_eq_true_eq]

/-- **C88, outlier rejection.**  In every history the rejection succeeds; each view keeps its
time, its grids and its IMU factor and loses exactly the measurements with a component above the
limit; so does the solver problem, and nothing else in it changes; the number reported is the
number of measurements lost.  (The English claim is about the length of the error:
`C88_negative_refuted`.) -/
theorem C88_filter_partial (env : VEnv K D) (m : Bool) (w : Int) (fe fd : Bool)
    (as : List (Act K D)) (t : St K D) (h : Hist env (St.new m w fe fd) as t)
    (res : Fid K → ℝ × ℝ) (factor : ℝ) :
    ∃ u n, filterViews res factor t = .ok (u, n) ∧
      u = { t with views := u.views, prob := u.prob } ∧ u.prob.pblocks = t.prob.pblocks ∧
      u.prob.next = t.prob.next ∧ u.views.length = t.views.length ∧
      (∀ (k : Nat) v v', t.views[k]? = some v → u.views[k]? = some v' →
        v'.num = v.num ∧ v'.ts = v.ts ∧ v'.grids = v.grids ∧ v'.imu = v.imu ∧
        v'.fids.Sublist v.fids ∧
        ∀ f ∈ v.fids, f ∈ v'.fids ↔ ¬ Above res factor v f) ∧
      u.prob.rblocks.Sublist t.prob.rblocks ∧
      (∀ b ∈ t.prob.rblocks, b ∈ u.prob.rblocks ↔
        ¬ ∃ v ∈ t.views, ∃ f ∈ v.fids, b.2 = .fid f ∧ Above res factor v f) ∧
      n + (u.views.map (fun v => v.fids.length)).sum = (t.views.map (fun v => v.fids.length)).sum ∧
      n + u.prob.rblocks.length = t.prob.rblocks.length := by
  obtain ⟨hw, hd⟩ := h.wf (WF.new _ _ _ _) (Distinct.new _ _ _ _)
  refine ⟨_, _, filterViews_eq hw hd res factor, rfl, rfl, rfl, by simp, ?_, List.filter_sublist,
    ?_, ?_, ?_⟩
  · intro k v v' hv hv'
    simp only [List.getElem?_map, hv, Option.map_some, Option.some.injEq] at hv'
    subst hv'
    refine ⟨rfl, rfl, rfl, rfl, List.filter_sublist, ?_⟩
    intro f hf
    simp only [kept, List.mem_filter, hf, true_and]
    rw [← lost_iff]
    simp
  · intro b hb
    simp only [without, List.mem_filter, hb, true_and]
    match hb2 : b.2 with
    | .fid f =>
      simp only [stays, Bool.not_eq_true', lostAny, List.any_eq_false, Bool.and_eq_true,
        decide_eq_true_eq, not_and, not_exists, Res.fid.injEq, lost_iff]
      constructor
      · rintro h1 v hv g hg rfl; exact h1 v hv hg
      · intro h1 v hv hg; exact h1 v hv f hg rfl
    | .imu _ => simp [stays]
    | .marg _ _ => simp [stays]
  · simp only [List.map_map]
    clear h hw hd
    generalize t.views = l
    induction l with
    | nil => rfl
    | cons v l ih =>
      simp only [List.map_cons, List.sum_cons, Function.comp_apply, kept] at ih ⊢
      have e := List.length_eq_length_filter_add (l := v.fids) (lost res factor v)
      have e2 : v.fids.filter (fun f => !lost res factor v f) =
        v.fids.filter (fun f => decide ¬ lost res factor v f = true) := by
        refine List.filter_congr fun f _ => ?_
        simp
      omega
  · -- the problem loses as many
    have key : (s : List (Nat × Res K)) → ∀ (l : List (View K)), (s.map Prod.snd).Nodup →
        (∀ v ∈ l, v.fids.Nodup) → l.Pairwise (fun a b => ∀ f, f ∈ a.fids → f ∉ b.fids) →
        (∀ v ∈ l, ∀ f ∈ v.fids, Res.fid f ∈ s.map Prod.snd) →
        (l.map (fun v => (v.fids.filter (lost res factor v)).length)).sum +
          (s.filter (fun b => stays (lostAny res factor l) b.2)).length = s.length := by
      intro s l hs hn hdj hin
      have h1 : (l.map (fun v => (v.fids.filter (lost res factor v)).length)).sum =
          (l.flatMap (fun v => v.fids.filter (lost res factor v))).length := by
        rw [List.length_flatMap]
      have h2 : ((l.flatMap (fun v => v.fids.filter (lost res factor v))).map Res.fid).Perm
          ((s.filter (fun b => !stays (lostAny res factor l) b.2)).map Prod.snd) := by
        rw [List.perm_ext_iff_of_nodup]
        · intro r
          simp only [List.mem_map, List.mem_flatMap, List.mem_filter]
          constructor
          · rintro ⟨f, ⟨v, hv, hf, hl⟩, rfl⟩
            obtain ⟨b, hb, hb2⟩ := List.mem_map.1 (hin v hv f hf)
            refine ⟨b, ⟨hb, ?_⟩, hb2⟩
            rw [hb2]
            simp only [stays, Bool.not_not, lostAny, List.any_eq_true]
            exact ⟨v, hv, by simp [hf, hl]⟩
          · rintro ⟨b, ⟨hb, hst⟩, rfl⟩
            match hb2 : b.2 with
            | .fid f =>
              rw [hb2] at hst
              simp only [stays, Bool.not_not, lostAny, List.any_eq_true, Bool.and_eq_true,
                decide_eq_true_eq] at hst
              obtain ⟨v, hv, hf, hl⟩ := hst
              exact ⟨f, ⟨v, hv, hf, hl⟩, rfl⟩
            | .imu _ => rw [hb2] at hst; simp [stays] at hst
            | .marg _ _ => rw [hb2] at hst; simp [stays] at hst
        · refine List.Nodup.map (fun a b hab => by injection hab) ?_
          rw [List.nodup_flatMap]
          refine ⟨fun v hv => (hn v hv).filter _, ?_⟩
          refine hdj.imp ?_
          intro a b hab f hfa hfb
          exact hab f (List.mem_filter.1 hfa).1 (List.mem_filter.1 hfb).1
        · exact (List.filter_sublist.map _).nodup hs
      have h3 := h2.length_eq
      simp only [List.length_map] at h3
      rw [h1, h3]
      have e := List.length_eq_length_filter_add (l := s) (fun b => stays (lostAny res factor l) b.2)
      have e2 : s.filter (fun b => !stays (lostAny res factor l) b.2) =
          s.filter (fun b => decide ¬ stays (lostAny res factor l) b.2 = true) := by
        refine List.filter_congr fun b _ => ?_
        simp
      omega
    exact key t.prob.rblocks t.views hw.prob.res (fun v hv => (hd v hv).of_map _) hw.disjoint
      (fun v hv f hf => hw.fid_mem hv hf)

/-- **C88, soundness.**  A measurement that is lost has an error longer than the limit. -/
theorem C88_sound (res : Fid K → ℝ × ℝ) (factor : ℝ) (v : View K) (f : Fid K)
    (h : Above res factor v f) : ∃ t, Limit res factor v t ∧ len (res f) > t := by
  obtain ⟨t, ht, h1⟩ := h
  refine ⟨t, ht, ?_⟩
  unfold len
  rcases h1 with h1 | h1
  · exact lt_of_lt_of_le h1 (Real.le_sqrt_of_sq_le (by nlinarith [sq_nonneg (res f).2]))
  · exact lt_of_lt_of_le h1 (Real.le_sqrt_of_sq_le (by nlinarith [sq_nonneg (res f).1]))

/-- **C88, refuted.**  A measurement whose error has no positive component is kept, however long
the error is. -/
theorem C88_negative_refuted (env : VEnv K D) (m : Bool) (w : Int) (fe fd : Bool)
    (as : List (Act K D)) (t : St K D) (h : Hist env (St.new m w fe fd) as t)
    (res : Fid K → ℝ × ℝ) (factor : ℝ) (hf0 : 0 ≤ factor) (k : Nat) (v : View K)
    (hv : t.views[k]? = some v) (f : Fid K) (hf : f ∈ v.fids) (h1 : (res f).1 ≤ 0)
    (h2 : (res f).2 ≤ 0) :
    ∃ u n v', filterViews res factor t = .ok (u, n) ∧ u.views[k]? = some v' ∧ f ∈ v'.fids := by
  obtain ⟨u, n, hu, -, -, -, hlen, hviews, -⟩ := C88_filter_partial env m w fe fd as t h res factor
  have hk : k < u.views.length := by
    rw [hlen]
    exact (List.getElem?_eq_some_iff.1 hv).1
  refine ⟨u, n, _, hu, List.getElem?_eq_getElem hk, ?_⟩
  rw [(hviews k v _ hv (List.getElem?_eq_getElem hk)).2.2.2.2.2 f hf]
  rintro ⟨τ, ⟨-, μ, -, rfl⟩, h3⟩
  have : 0 ≤ factor * Real.sqrt
      (((v.fids.map (fun f => len (res f))).map (fun x => (x - μ) ^ 2)).sum /
        (((v.fids.map (fun f => len (res f))).length : ℝ) - 1)) := by positivity
  rcases h3 with h3 | h3 <;> linarith

/-- **C88, refuted (2).**  In a view whose errors all have the same length there is no outlier,
yet every measurement whose error has a positive component is lost. -/
theorem C88_equal_refuted (env : VEnv K D) (m : Bool) (w : Int) (fe fd : Bool)
    (as : List (Act K D)) (t : St K D) (h : Hist env (St.new m w fe fd) as t)
    (res : Fid K → ℝ × ℝ) (factor e : ℝ) (k : Nat) (v : View K)
    (hv : t.views[k]? = some v) (hlen : 2 ≤ v.fids.length) (he : ∀ f ∈ v.fids, len (res f) = e)
    (f : Fid K) (hf : f ∈ v.fids) (hpos : 0 < (res f).1 ∨ 0 < (res f).2) :
    ∃ u n v', filterViews res factor t = .ok (u, n) ∧ u.views[k]? = some v' ∧ f ∉ v'.fids := by
  obtain ⟨u, n, hu, -, -, -, hl, hviews, -⟩ := C88_filter_partial env m w fe fd as t h res factor
  have hk : k < u.views.length := by
    rw [hl]
    exact (List.getElem?_eq_some_iff.1 hv).1
  refine ⟨u, n, _, hu, List.getElem?_eq_getElem hk, ?_⟩
  rw [(hviews k v _ hv (List.getElem?_eq_getElem hk)).2.2.2.2.2 f hf, not_not]
  refine ⟨0, ⟨by simpa using hlen, e, ?_, ?_⟩, hpos⟩
  · have : v.fids.map (fun f => len (res f)) = v.fids.map (fun _ => e) :=
      List.map_congr_left he
    rw [this]
    simp [List.sum_replicate, mul_comm]
  · have : (v.fids.map (fun f => len (res f))).map (fun x => (x - e) ^ 2) =
        v.fids.map (fun _ => (0 : ℝ)) := by
      rw [List.map_map]
      refine List.map_congr_left fun g hg => ?_
      simp [he g hg]
    rw [this]
    simp

/-! ### C89 -/

/-- **C89, solve.**  In every history `solve()` succeeds.  The solver runs twice on the whole
problem, first with the time delay held constant, then with the time delay free; with outlier
rejection it runs a third time, on what the rejection leaves.  In all runs, exactly the other
blocks that were constant before are constant.  (The English claim is that parameters the user
fixed are constant: `C89_delay_refuted`.) -/
theorem C89_solve_partial (env : VEnv K D) (m : Bool) (w : Int) (fe fd : Bool)
    (as : List (Act K D)) (t : St K D) (h : Hist env (St.new m w fe fd) as t)
    (rejection : Bool) (factor : ℝ) (res : Fid K → ℝ × ℝ) (const : Par → Bool) :
    ∃ u const' k1 k2 rest, solve rejection factor res const t = .ok (u, const', k1 :: k2 :: rest) ∧
      (∀ k ∈ k1 :: k2 :: rest, ∀ q, q ≠ .delay → k.const q = const q) ∧
      (∀ q, q ≠ .delay → const' q = const q) ∧
      k1.const .delay = true ∧ (∀ k ∈ k2 :: rest, k.const .delay = false) ∧
      const' .delay = false ∧
      k1.residuals = t.prob.rblocks.map Prod.snd ∧ k2.residuals = t.prob.rblocks.map Prod.snd ∧
      (rejection = false → u = t ∧ rest = []) ∧
      (rejection = true → ∃ n k3, filterViews res factor t = .ok (u, n) ∧ rest = [k3] ∧
        k3.residuals = u.prob.rblocks.map Prod.snd) := by
  unfold solve
  cases rejection with
  | false =>
    simp only [Bool.false_eq_true, if_false]
    refine ⟨_, _, _, _, _, rfl, ?_, ?_, ?_, ?_, ?_, rfl, rfl, by simp, by simp⟩
    · intro k hk q hq
      simp only [List.mem_cons, List.not_mem_nil, or_false] at hk
      rcases hk with rfl | rfl <;> simp [setConst, hq]
    · intro q hq; simp [setConst, hq]
    · simp [setConst]
    · intro k hk
      simp only [List.mem_cons, List.not_mem_nil, or_false] at hk
      subst hk; simp [setConst]
    · simp [setConst]
  | true =>
    obtain ⟨u, n, hu, -⟩ := C88_filter_partial env m w fe fd as t h res factor
    simp only [if_true]
    rw [hu, AprilGrid.ok_bind]
    refine ⟨_, _, _, _, _, rfl, ?_, ?_, ?_, ?_, ?_, rfl, rfl, by simp, ?_⟩
    · intro k hk q hq
      simp only [List.mem_cons, List.not_mem_nil, or_false] at hk
      rcases hk with rfl | rfl | rfl <;> simp [setConst, hq]
    · intro q hq; simp [setConst, hq]
    · simp [setConst]
    · intro k hk
      simp only [List.mem_cons, List.not_mem_nil, or_false] at hk
      rcases hk with rfl | rfl <;> simp [setConst]
    · simp [setConst]
    · intro _
      exact ⟨n, _, rfl, rfl, rfl⟩

/-- **C89, refuted.**  A time delay that the user asked to keep fixed is estimated: the last run
of the solver in `solve()` does not hold it constant, nor do later runs. -/
theorem C89_delay_refuted (env : VEnv K D) (m : Bool) (w : Int) (fe : Bool)
    (as : List (Act K D)) (t : St K D) (h : Hist env (St.new m w fe true) as t)
    (rejection : Bool) (factor : ℝ) (res : Fid K → ℝ × ℝ) :
    isFixed (St.new m w fe true : St K D) .delay = true ∧
    ∃ u const' ks k, solve rejection factor res (isFixed t) t = .ok (u, const', ks) ∧
      ks.getLast? = some k ∧ k.const .delay = false ∧ const' .delay = false := by
  refine ⟨rfl, ?_⟩
  obtain ⟨u, c, k1, k2, rest, h1, -, -, -, h5, h6, -⟩ :=
    C89_solve_partial env m w fe true as t h rejection factor res (isFixed t)
  refine ⟨u, c, _, (k2 :: rest).getLast (by simp), h1, ?_, h5 _ (List.getLast_mem _), h6⟩
  rw [List.getLast?_cons_cons, List.getLast?_eq_getLast_of_ne_nil]

end Yac.VI
