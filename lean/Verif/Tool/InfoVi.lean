import Verif.Tool.InfoProps

/-! # C134: the information reported by `calib_info` in the visual-inertial mode -/

namespace Yac.Tool

open Yac.AprilGrid (Grid)
open Matrix

section
variable {E : Type}

/-- The events of a timeline in the order of the loop. -/
def flat (es : List (ℤ × E)) : List (ℤ × E) :=
  (Timeline.run es).timestamps.flatMap (fun ts => (Timeline.getEvents (Timeline.run es) ts).map (fun e => (ts, e)))

theorem events_at (es : List (ℤ × E)) (ts : ℤ) :
    (Timeline.getEvents (Timeline.run es) ts).map (fun e => (ts, e)) = es.filter (fun p => decide (p.1 = ts)) := by
  obtain ⟨h1, -, -, h4⟩ := Timeline.run_inv es
  unfold Timeline.getEvents Timeline.equalRange
  rw [Timeline.range_filter _ _ h1, h4, List.map_map]
  conv_rhs => rw [← List.map_id (es.filter (fun p => decide (p.1 = ts)))]
  apply List.map_congr_left
  intro p hp
  have := (List.mem_filter.1 hp).2
  rw [decide_eq_true_eq] at this
  show (ts, p.2) = p
  rw [← this]

theorem flat_facts (es : List (ℤ × E)) : (flat es).Pairwise (fun a b => a.1 ≤ b.1) ∧
    ∀ k : ℤ, (flat es).filter (fun p => decide (p.1 = k)) = es.filter (fun p => decide (p.1 = k)) := by
  obtain ⟨h1, h2, h3, h4⟩ := Timeline.run_inv es
  have e : flat es = (Timeline.run es).timestamps.flatMap (fun ts => es.filter (fun p => decide (p.1 = ts))) := by
    unfold flat
    congr 1
    funext ts
    exact events_at es ts
  rw [e]
  constructor
  · rw [List.pairwise_flatMap]
    refine ⟨?_, ?_⟩
    · intro t _
      refine List.Pairwise.imp_of_mem (R := fun _ _ => True) ?_ (by simp [List.pairwise_iff_getElem])
      intro a b ha hb _
      have h1 := (List.mem_filter.1 ha).2
      have h2 := (List.mem_filter.1 hb).2
      rw [decide_eq_true_eq] at h1 h2
      omega
    · refine h2.imp ?_
      intro t u htu a ha b hb
      have h1 := (List.mem_filter.1 ha).2
      have h2 := (List.mem_filter.1 hb).2
      rw [decide_eq_true_eq] at h1 h2
      omega
  · intro k
    have hgen : ∀ T : List ℤ, T.Nodup →
        (T.flatMap (fun ts => es.filter (fun p => decide (p.1 = ts)))).filter (fun p => decide (p.1 = k)) =
          if k ∈ T then es.filter (fun p => decide (p.1 = k)) else [] := by
      intro T
      induction T with
      | nil => intro _; rfl
      | cons t T ih =>
        intro hn
        obtain ⟨n1, n2⟩ := List.nodup_cons.1 hn
        rw [List.flatMap_cons, List.filter_append, ih n2, List.filter_filter]
        by_cases ht : t = k
        · subst ht
          rw [if_neg n1, if_pos (by simp), List.append_nil]
          refine List.filter_congr (fun p _ => ?_)
          simp
        · have : es.filter (fun a => decide (a.1 = k) && decide (a.1 = t)) = [] := by
            rw [List.filter_eq_nil_iff]
            intro a _ hh
            simp only [Bool.and_eq_true, decide_eq_true_eq] at hh
            exact ht (hh.2.symm.trans hh.1)
          rw [this, List.nil_append]
          simp [Ne.symm ht]
    rw [hgen _ (h2.imp (fun h => ne_of_lt h))]
    by_cases hm : k ∈ (Timeline.run es).timestamps
    · rw [if_pos hm]
    · rw [if_neg hm]
      symm
      rw [List.filter_eq_nil_iff]
      intro p hp hh
      rw [decide_eq_true_eq] at hh
      exact hm ((h3 k).2 (List.mem_map.2 ⟨p, hp, hh⟩))

/-- The order of the loop is the only one by time that keeps the order of entry. -/
theorem flat_unique {es l : List (ℤ × E)} (h1 : l.Pairwise (fun a b => a.1 ≤ b.1))
    (h2 : ∀ k : ℤ, l.filter (fun p => decide (p.1 = k)) = es.filter (fun p => decide (p.1 = k))) : l = flat es := by
  obtain ⟨f1, f2⟩ := flat_facts es
  exact eq_of_filters l (flat es) h1 f1 (fun k => by rw [h2, f2])

end

variable {K D R : Type} [DecidableEq K]

def viG (env : VI.VEnv K D) (est : VI.St K D → Option (R × R)) (s : VI.St K D) (te : ℤ × VI.Ev K D) :
    Except Fault (VI.St K D × Option (R × R)) :=
  match te.2 with
  | .grid c g => .ok (VI.addGrid s c g, none)
  | .imu t a w => VI.addImu env s t a w >>= fun r => .ok (r.1, if r.2 then est r.1 else none)

theorem viStep_eq (env : VI.VEnv K D) (est : VI.St K D → Option (R × R)) : viStep env est = stepOf (viG env est) Prod.fst := by
  funext acc te
  obtain ⟨ts, e⟩ := te
  cases e with
  | grid c g => rfl
  | imu t a w =>
    unfold viStep stepOf viG
    simp only
    cases VI.addImu env acc.1 t a w with
    | error e => rfl
    | ok r =>
      obtain ⟨u, b⟩ := r
      cases b <;> rfl

theorem run_events (env : VI.VEnv K D) (est : VI.St K D → Option (R × R)) (s : VI.St K D) (l : List (ℤ × VI.Ev K D)) :
    runOf (viG env est) s l = (l.map Prod.snd).foldlM (VI.feed env) s := by
  unfold runOf
  rw [List.foldlM_map]
  congr 1
  funext s te
  obtain ⟨ts, e⟩ := te
  cases e with
  | grid c g => rfl
  | imu t a w =>
    unfold viG VI.feed
    simp only
    cases VI.addImu env s t a w <;> rfl

theorem load_flat (env : VI.VEnv K D) (d : VI.LoadIn K D) (s : VI.St K D) :
    VI.loadData env d s = ((flat (VI.entries (s.cams.map Prod.fst) d)).map Prod.snd).foldlM (VI.feed env) s := by
  obtain ⟨l, h1, -, h3, h4⟩ := VI.C118_order env d s
  rw [h1, flat_unique h3 h4]

/-- The grids of a time come before the sample of this time. -/
theorem entries_at (cams : List ℤ) (d : VI.LoadIn K D) (k : ℤ) :
    (VI.entries cams d).filter (fun p => decide (p.1 = k)) =
      cams.flatMap (fun c => ((d.grids c).filter (fun g => decide (g.timestamp = k))).map (fun g => (g.timestamp, VI.Ev.grid c g))) ++
        (d.imu.filter (fun r => decide (r.1 = k))).map (fun r => (r.1, VI.Ev.imu r.1 r.2.1 r.2.2)) := by
  unfold VI.entries
  rw [List.filter_append]
  congr 1
  · rw [List.filter_flatMap]
    congr 1
    funext c
    rw [List.filter_map]
    rfl
  · rw [List.filter_map]
    rfl

theorem before_at (cams : List ℤ) (d : VI.LoadIn K D) (ts k : ℤ) :
    (VI.entries cams (before d ts)).filter (fun p => decide (p.1 = k)) =
      if k < ts then (VI.entries cams d).filter (fun p => decide (p.1 = k))
      else if k = ts then cams.flatMap (fun c => ((d.grids c).filter (fun g => decide (g.timestamp = k))).map (fun g => (g.timestamp, VI.Ev.grid c g)))
      else [] := by
  have hg : ∀ c, ((before d ts).grids c).filter (fun g => decide (g.timestamp = k)) =
      if k ≤ ts then (d.grids c).filter (fun g => decide (g.timestamp = k)) else [] := by
    intro c
    show ((d.grids c).filter (fun g => decide (g.timestamp ≤ ts))).filter (fun g => decide (g.timestamp = k)) = _
    rw [List.filter_filter]
    split_ifs with h
    · refine List.filter_congr (fun g _ => ?_)
      by_cases e : g.timestamp = k
      · simp [e, h]
      · simp [e]
    · rw [List.filter_eq_nil_iff]
      intro g _ hh
      simp only [Bool.and_eq_true, decide_eq_true_eq] at hh
      omega
  have hi : (before d ts).imu.filter (fun r => decide (r.1 = k)) =
      if k < ts then d.imu.filter (fun r => decide (r.1 = k)) else [] := by
    show (d.imu.filter (fun r => decide (r.1 < ts))).filter (fun r => decide (r.1 = k)) = _
    rw [List.filter_filter]
    split_ifs with h
    · refine List.filter_congr (fun g _ => ?_)
      by_cases e : g.1 = k
      · simp [e, h]
      · simp [e]
    · rw [List.filter_eq_nil_iff]
      intro g _ hh
      simp only [Bool.and_eq_true, decide_eq_true_eq] at hh
      omega
  rw [entries_at, entries_at, hi]
  simp only [hg]
  by_cases h1 : k < ts
  · simp only [if_pos h1, if_pos h1.le]
  · rw [if_neg h1, if_neg h1, List.map_nil, List.append_nil]
    by_cases h2 : k = ts
    · rw [if_pos h2]
      simp only [if_pos h2.le]
    · rw [if_neg h2]
      simp only [if_neg (show ¬ k ≤ ts by omega), List.map_nil]
      simp

/-- The events before a sample are the earlier samples and the grids up to its time. -/
theorem split_event {cams : List ℤ} {d : VI.LoadIn K D} (hn : (d.imu.map Prod.fst).Nodup) {pre post : List (ℤ × VI.Ev K D)}
    {ts t : ℤ} {a w : D} (h : flat (VI.entries cams d) = pre ++ (ts, VI.Ev.imu t a w) :: post) :
    t = ts ∧ (ts, a, w) ∈ d.imu ∧ pre = flat (VI.entries cams (before d ts)) ∧ ∀ p ∈ post, p.1 ≠ ts := by
  obtain ⟨f1, f2⟩ := flat_facts (VI.entries cams d)
  rw [h, List.pairwise_append, List.pairwise_cons] at f1
  obtain ⟨p1, ⟨p2, -⟩, p3⟩ := f1
  have hts := f2 ts
  rw [h, entries_at, List.filter_append, List.filter_cons_of_pos (by simp)] at hts
  obtain ⟨G, hG⟩ : ∃ G, G = cams.flatMap (fun c => ((d.grids c).filter (fun g => decide (g.timestamp = ts))).map (fun g => (g.timestamp, VI.Ev.grid (D := D) c g))) := ⟨_, rfl⟩
  rw [← hG] at hts
  have hGno : ∀ p ∈ G, ∀ b c e, p.2 ≠ VI.Ev.imu b c e := by
    intro p hp b c e
    rw [hG] at hp
    obtain ⟨c', -, hp⟩ := List.mem_flatMap.1 hp
    obtain ⟨g, -, rfl⟩ := List.mem_map.1 hp
    simp
  have hmem : (ts, VI.Ev.imu t a w) ∈ (d.imu.filter (fun r => decide (r.1 = ts))).map (fun r => (r.1, VI.Ev.imu (K := K) r.1 r.2.1 r.2.2)) := by
    have : (ts, VI.Ev.imu t a w) ∈ G ++ (d.imu.filter (fun r => decide (r.1 = ts))).map (fun r => (r.1, VI.Ev.imu (K := K) r.1 r.2.1 r.2.2)) := by
      rw [← hts]; simp
    rcases List.mem_append.1 this with h | h
    · exact absurd rfl (hGno _ h t a w)
    · exact h
  obtain ⟨r, hr, hre⟩ := List.mem_map.1 hmem
  obtain ⟨r1, a', w'⟩ := r
  simp only [Prod.mk.injEq, VI.Ev.imu.injEq] at hre
  obtain ⟨e1, e2, e3, e4⟩ := hre
  subst e1 e2 e3 e4
  have hone : d.imu.filter (fun r => decide (r.1 = r1)) = [(r1, a', w')] := by
    have hmemd := (List.mem_filter.1 hr).1
    have hlen : (d.imu.filter (fun r => decide (r.1 = r1))).length ≤ 1 := by
      have hnd : ((d.imu.filter (fun r => decide (r.1 = r1))).map Prod.fst).Nodup := hn.sublist (List.Sublist.map _ List.filter_sublist)
      by_contra hgt
      match hL : d.imu.filter (fun r => decide (r.1 = r1)) with
      | [] => rw [hL] at hgt; simp at hgt
      | [_] => rw [hL] at hgt; simp at hgt
      | x :: y :: L =>
        rw [hL] at hnd
        have hx : x.1 = r1 := by
          have := (List.mem_filter.1 (show x ∈ d.imu.filter (fun r => decide (r.1 = r1)) by rw [hL]; simp)).2
          simpa using this
        have hy : y.1 = r1 := by
          have := (List.mem_filter.1 (show y ∈ d.imu.filter (fun r => decide (r.1 = r1)) by rw [hL]; simp)).2
          simpa using this
        simp [hx, hy] at hnd
    obtain ⟨L, hL⟩ : ∃ L, L = d.imu.filter (fun r => decide (r.1 = r1)) := ⟨_, rfl⟩
    rw [← hL] at hr hlen ⊢
    match L, hr, hlen with
    | [], hr, _ => cases hr
    | [x], hr, _ => rw [List.mem_singleton.1 hr]
    | x :: y :: L, _, hlen => simp at hlen
  rw [hone] at hts
  simp only [List.map_cons, List.map_nil] at hts
  -- nothing of this time comes after the sample
  have hpost : post.filter (fun p => decide (p.1 = r1)) = [] ∧ pre.filter (fun p => decide (p.1 = r1)) = G := by
    rcases List.eq_nil_or_concat (post.filter (fun p => decide (p.1 = r1))) with e | ⟨q, z, e⟩
    · rw [e] at hts
      obtain ⟨e1, -⟩ := List.append_inj' hts rfl
      exact ⟨e, e1⟩
    · exfalso
      rw [e] at hts
      have hts' : (pre.filter (fun p => decide (p.1 = r1)) ++ (r1, VI.Ev.imu r1 a' w') :: q) ++ [z] = G ++ [(r1, VI.Ev.imu r1 a' w')] := by
        rw [← hts]; simp
      obtain ⟨e1, -⟩ := List.append_inj' hts' rfl
      exact hGno (r1, VI.Ev.imu r1 a' w') (by rw [← e1]; simp) r1 a' w' rfl
  refine ⟨rfl, (List.mem_filter.1 hr).1, ?_, ?_⟩
  · apply flat_unique p1
    intro k
    rw [before_at]
    by_cases h1 : k < r1
    · rw [if_pos h1, ← f2 k, h, List.filter_append, List.filter_cons_of_neg (by simp; omega)]
      have hnil : post.filter (fun p => decide (p.1 = k)) = [] := by
        rw [List.filter_eq_nil_iff]
        intro p hp hk
        have hp2 : r1 ≤ p.1 := p2 p hp
        rw [decide_eq_true_eq] at hk
        omega
      rw [hnil, List.append_nil]
    · rw [if_neg h1]
      by_cases h2 : k = r1
      · subst h2
        rw [if_pos rfl, hpost.2, hG]
      · rw [if_neg h2]
        rw [List.filter_eq_nil_iff]
        intro p hp
        have := p3 p hp (r1, VI.Ev.imu r1 a' w') (by simp)
        simp at this ⊢
        omega
  · intro p hp he
    have : p ∈ post.filter (fun p => decide (p.1 = r1)) := List.mem_filter.2 ⟨hp, by simp [he]⟩
    rw [hpost.1] at this
    cases this

/-- **C134, visual-inertial.**  The run goes through exactly when the data set can be loaded, and ends with the same calibrator.  If no
two IMU samples have the same time, the report has an entry for a time if and only if there is a sample with this time that makes a
view (given the grids up to its time and the earlier samples) and the covariance can be recovered then; the entry is what the
covariance says. -/
theorem C134_vi (env : VI.VEnv K D) (est : VI.St K D → Option (R × R)) (s : VI.St K D) (d : VI.LoadIn K D) :
    (∀ t m, viInfo env est s d = .ok (t, m) →
      VI.loadData env d s = .ok t ∧ Paired m ∧
      ((d.imu.map Prod.fst).Nodup → ∀ ts i e, (Reports m ts i e ↔
        ∃ a w s0 u, (ts, a, w) ∈ d.imu ∧ VI.loadData env (before d ts) s = .ok s0 ∧ VI.addImu env s0 ts a w = .ok (u, true) ∧
          est u = some (i, e)))) ∧
    (∀ t, VI.loadData env d s = .ok t → ∃ m, viInfo env est s d = .ok (t, m)) := by
  obtain ⟨f1, f2⟩ := fold_put (viG env est) Prod.fst s (flat (VI.entries (s.cams.map Prod.fst) d))
  have hdef : viInfo env est s d = (flat (VI.entries (s.cams.map Prod.fst) d)).foldlM (stepOf (viG env est) Prod.fst) (s, ⟨[], []⟩) := by
    rw [← viStep_eq]; rfl
  rw [hdef]
  refine ⟨?_, fun t h => f2 t (by rw [run_events, ← load_flat]; exact h)⟩
  intro t m h
  obtain ⟨a1, a2, a3, a4⟩ := f1 t m h
  refine ⟨by rw [load_flat, ← run_events env est]; exact a1, ⟨a2, a3⟩, ?_⟩
  intro hn ts i e
  unfold Reports
  rw [a4]
  constructor
  · rintro ⟨pre, x, post, u, v, h1, h2, h3, h4, -⟩
    obtain ⟨ts', x⟩ := x
    cases x with
    | grid c g => cases h4
    | imu t' a w =>
      change ts' = ts at h2
      subst h2
      obtain ⟨rfl, b2, b3, -⟩ := split_event hn h1
      change VI.addImu env u t' a w >>= _ = _ at h4
      cases hi : VI.addImu env u t' a w with
      | error e => rw [hi] at h4; cases h4
      | ok r =>
        rw [hi] at h4
        obtain ⟨z, b⟩ := r
        have h4' := Except.ok.inj h4
        have hb := congrArg Prod.snd h4'
        cases b with
        | false => simp at hb
        | true =>
          refine ⟨a, w, u, z, b2, ?_, hi, ?_⟩
          · rw [load_flat, ← b3, ← run_events env est]; exact h3
          · simpa using hb
  · rintro ⟨a, w, s0, u, h1, h2, h3, h4⟩
    have hx : (ts, VI.Ev.imu ts a w) ∈ flat (VI.entries (s.cams.map Prod.fst) d) := by
      have hf := (flat_facts (VI.entries (s.cams.map Prod.fst) d)).2 ts
      have : (ts, VI.Ev.imu ts a w) ∈ (VI.entries (s.cams.map Prod.fst) d).filter (fun p => decide (p.1 = ts)) := by
        refine List.mem_filter.2 ⟨?_, by simp⟩
        unfold VI.entries
        exact List.mem_append_right _ (List.mem_map.2 ⟨(ts, a, w), h1, rfl⟩)
      rw [← hf] at this
      exact (List.mem_filter.1 this).1
    obtain ⟨pre, post, hsplit⟩ := List.append_of_mem hx
    obtain ⟨-, -, b3, b4⟩ := split_event hn hsplit
    refine ⟨pre, (ts, VI.Ev.imu ts a w), post, s0, u, hsplit, rfl, ?_, ?_, ?_⟩
    · rw [run_events, b3, ← load_flat]; exact h2
    · show VI.addImu env s0 ts a w >>= _ = _
      rw [h3, ← h4]
      rfl
    · intro a' y b z r hp hk
      exact absurd hk (b4 y (by rw [hp]; simp))

/-- **C134, values.**  If the problem determines all its free parameters and the IMU extrinsics are free, with information `H` about
the extrinsics (C114): the first value is minus the binary logarithm of the determinant of `H`, the second one the entropy of the
normal distribution with covariance `H⁻¹`.  Otherwise nothing is noted. -/
theorem C134_values {k q : Type} [Fintype k] [Fintype q] [DecidableEq k] [DecidableEq q] (cov : VI.St K D → VI.Recover.Cov) (s : VI.St K D)
    (E : Matrix k (Fin 6) ℝ) (X : Matrix k q ℝ) (h : VI.Recover.Free (cov s) E X) :
    ((∀ (u : Fin 6 → ℝ) (v : q → ℝ), E *ᵥ u + X *ᵥ v = 0 → u = 0 ∧ v = 0) →
      ∃ H, VI.Recover.recoverInfo (cov s) = some H ∧ 0 < H.det ∧
        viEstimate cov s = some (-Real.logb 2 H.det, gaussEntropy 6 H⁻¹.det)) ∧
    ((∃ (u : Fin 6 → ℝ) (v : q → ℝ), E *ᵥ u + X *ᵥ v = 0 ∧ (u ≠ 0 ∨ v ≠ 0)) → viEstimate cov s = none) := by
  constructor
  · intro hfull
    obtain ⟨H, S, h1, h2, h3, h4, h5, -, -⟩ := VI.Recover.C114_info h hfull
    have hpd : H.PosDef := by
      refine Matrix.PosDef.of_dotProduct_mulVec_pos ?_ ?_
      · rw [Matrix.IsHermitian, Matrix.conjTranspose_eq_transpose_of_trivial]; exact h4
      · intro u hu
        simpa using h5 u hu
    have hdet : 0 < H.det := hpd.det_pos
    have hS : S = H⁻¹ := (Matrix.inv_eq_right_inv h3).symm
    refine ⟨H, h1, hdet, ?_⟩
    unfold viEstimate
    rw [h2, hS]
    show some (viValues H⁻¹) = _
    unfold viValues gaussEntropy
    have hi : H⁻¹.det = H.det⁻¹ := by rw [Matrix.det_nonsing_inv, Ring.inverse_eq_inv']
    rw [hi]
    have hp : (0 : ℝ) < 2 * Real.pi := by positivity
    congr 2
    · rw [Real.log_inv, Real.logb]; ring
    · rw [Real.log_mul (by positivity) (by positivity), Real.log_pow, Real.log_mul (by positivity) (by positivity), Real.log_exp]
      push_cast
      ring
  · intro hdef
    unfold viEstimate
    rw [(VI.Recover.C114_rank h hdef).1]
    rfl

end Yac.Tool
