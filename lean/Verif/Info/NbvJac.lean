import Verif.Info.NbvLemmas

namespace Yac.Info
open Matrix Yac.Marg Yac.Solver Finset

set_option linter.unusedSectionVars false

variable {P : Type} [DecidableEq P]
variable {info : P → ParamInfo} {cams exts : List P} {views : Nat} {fs new : List (Res ℝ P)} {np : P}
  {C Q : Finset P}

/-- The stacked Jacobian of all residuals in the columns of the evaluator. -/
noncomputable abbrev bigJ (info : P → ParamInfo) (fs new : List (Res ℝ P)) (np : P) : Nat → Nat → ℝ :=
  stackJ info (nc info fs np) (fs ++ new)

/-- Its columns for the parameters `S`. -/
noncomputable def colJ (info : P → ParamInfo) (fs new : List (Res ℝ P)) (np : P) (S : Finset P) :
    Matrix (Fin (resLen (fs ++ new))) (Comp info S) ℝ :=
  fun k x => bigJ info fs new np k (nc info fs np x.1 + x.2)

/-- `n` of its columns from column `i`. -/
noncomputable def rangeJ (info : P → ParamInfo) (fs new : List (Res ℝ P)) (np : P) (i n : Nat) :
    Matrix (Fin (resLen (fs ++ new))) (Fin n) ℝ :=
  fun k a => bigJ info fs new np k (i + a)

theorem disj_all (h : Scene info cams exts views fs new np C Q) {p q : P} {a : Nat}
    (hp : Optimised info (fs ++ new) p) (hq : Optimised info (fs ++ new) q)
    (h1 : InCol info (nc info fs np) p a) (h2 : InCol info (nc info fs np) q a) : p = q :=
  assign_disjoint info _ 0 a p q (mem_all h hp) (mem_all h hq) h1 h2

theorem opt_C (h : Scene info cams exts views fs new np C Q) {p : P} (hp : p ∈ C) :
    Optimised info (fs ++ new) p := by
  obtain ⟨a | a, hf⟩ := (h.calib p).mp hp
  · exact opt_left ⟨hf, h.cam_used p a⟩
  · exact opt_left ⟨hf, h.ext_used p a hf⟩

theorem opt_Q (h : Scene info cams exts views fs new np C Q) {p : P} (hp : p ∈ Q) :
    Optimised info (fs ++ new) p := ((h.poses p).mp hp).1

theorem mem_CQ (h : Scene info cams exts views fs new np C Q) {p : P}
    (hp : Optimised info (fs ++ new) p) : p ∈ C ∨ p ∈ Q := by
  rcases h.known p hp with a | a | a
  · exact Or.inl ((h.calib p).mpr ⟨Or.inl a, hp.1⟩)
  · exact Or.inl ((h.calib p).mpr ⟨Or.inr a, hp.1⟩)
  · exact Or.inr ((h.poses p).mpr ⟨hp, a.1⟩)

/-- The information matrix is made of the columns. -/
theorem info_gram (h : Scene info cams exts views fs new np C Q) (S T : Finset P)
    (hS : ∀ p ∈ S, Optimised info (fs ++ new) p) (hT : ∀ p ∈ T, Optimised info (fs ++ new) p) :
    infoBlock info (fs ++ new) S T =
      (colJ info fs new np S)ᵀ * colJ info fs new np T := by
  ext ⟨p, i⟩ ⟨q, j⟩
  rw [Matrix.mul_apply]
  simp only [transpose_apply, colJ]
  rw [← Finset.sum_range (fun k => bigJ info fs new np k (nc info fs np p + i) *
    bigJ info fs new np k (nc info fs np q + j)), sum_stackJ]
  unfold infoBlock infoEntry
  congr 1
  apply List.map_congr_left
  intro f hf
  have hS' : ∀ b ∈ f.blocks, (info b.1).fixed = false → b.1 ∈ C ∪ Q := by
    intro b hb hbf
    rw [mem_union]
    exact mem_CQ h ⟨hbf, f, hf, List.mem_map_of_mem hb⟩
  have ho : ∀ p ∈ C ∪ Q, Optimised info (fs ++ new) p := by
    intro p hp
    rcases mem_union.mp hp with a | a
    · exact opt_C h a
    · exact opt_Q h a
  have hd : ∀ p ∈ C ∪ Q, ∀ q ∈ C ∪ Q, ∀ a, InCol info (nc info fs np) p a →
      InCol info (nc info fs np) q a → p = q :=
    fun p hp q hq a => disj_all h (ho p hp) (ho q hq)
  apply sum_congr rfl
  intro k _
  rw [rowG_deriv info _ (C ∪ Q) f.blocks hS' hd p (mem_union.mpr (mem_CQ h (hS p p.2)))
      (hS p p.2).1 k i i.2,
    rowG_deriv info _ (C ∪ Q) f.blocks hS' hd q (mem_union.mpr (mem_CQ h (hT q q.2)))
      (hT q q.2).1 k j j.2]
  rfl

theorem stackJ_zero (c : P → Nat) (fs : List (Res ℝ P)) (k a : Nat)
    (h : ∀ p, Optimised info fs p → ¬ InCol info c p a) : stackJ info c fs k a = 0 := by
  induction fs generalizing k with
  | nil => rfl
  | cons f fs ih =>
    rw [stackJ]
    split_ifs
    · apply rowG_zero
      intro b hb hbf
      exact h b.1 ⟨hbf, f, List.mem_cons_self, List.mem_map_of_mem hb⟩
    · apply ih
      rintro p ⟨hf, g, hg, hp⟩
      exact h p ⟨hf, g, List.mem_cons_of_mem _ hg, hp⟩

theorem nc_C (h : Scene info cams exts views fs new np C Q) {p : P} (hp : p ∈ C) :
    nc info fs np p = col (assign info 0 (calL info fs)) p ∧
      nc info fs np p + (info p).size ≤ remainSize info cams exts := by
  have hm := (mem_cal h p).mpr hp
  have e : nc info fs np p = col (assign info 0 (calL info fs)) p := by
    unfold nc
    rw [List.append_assoc (calL info fs), assign_append, col_append_left _ _ _ (by
      rw [assign_keys]; exact hm)]
  refine ⟨e, ?_⟩
  rw [e, remain_eq h]
  have := (assign_bounds info _ 0 p hm).2
  rw [Nat.zero_add] at this
  exact this

theorem nc_Q (h : Scene info cams exts views fs new np C Q) {p : P} (hp : p ∈ Q) :
    remainSize info cams exts ≤ nc info fs np p ∧
      nc info fs np p + (info p).size ≤ remainSize info cams exts + (views * 6 + 6) := by
  have ho := opt_Q h hp
  have hk := ((h.poses p).mp hp).2
  have hnC : p ∉ calL info fs := by
    intro hm
    obtain ⟨a | a, _⟩ := (h.calib p).mp ((mem_cal h p).mp hm)
    · have := h.cam_kind p a; rw [hk] at this; simp at this
    · have := h.ext_kind p a; rw [hk] at this; simp at this
  have hm := mem_all h ho
  rw [List.append_assoc (calL info fs)] at hm
  have hm : p ∈ poseL info fs ++ [np] := (List.mem_append.mp hm).resolve_left hnC
  have e : nc info fs np p =
      col (assign info (0 + (List.map (fun p => (info p).size) (calL info fs)).sum)
        (poseL info fs ++ [np])) p := by
    unfold nc
    rw [List.append_assoc (calL info fs), assign_append, col_append_right _ _ _ (by
      rw [assign_keys]; exact hnC)]
  have hb := assign_bounds info (poseL info fs ++ [np])
    (0 + (List.map (fun p => (info p).size) (calL info fs)).sum) p hm
  rw [← e] at hb
  have h1 := poseL_total h
  rw [remain_eq h]
  unfold totalSize at h1 ⊢
  have h2 := h.np_pose.2.2
  simp only [List.map_append, List.sum_append, List.map_cons, List.map_nil, List.sum_cons,
    List.sum_nil, h2, add_zero] at hb ⊢
  omega

/-- The columns of the calibration parameters are the first `remain_size` ones. -/
theorem exists_equiv (h : Scene info cams exts views fs new np C Q) :
    ∃ e : Comp info C ≃ Fin (remainSize info cams exts),
      ∀ x, ((e x : Fin _) : Nat) = nc info fs np x.1 + x.2 := by
  have hlt : ∀ x : Comp info C, nc info fs np x.1 + x.2 < remainSize info cams exts := by
    intro x
    have := (nc_C h x.1.2).2
    have := x.2.2
    omega
  let f : Comp info C → Fin (remainSize info cams exts) := fun x => ⟨_, hlt x⟩
  have hf : Function.Bijective f := by
    constructor
    · rintro ⟨⟨p, hp⟩, i⟩ ⟨⟨q, hq⟩, j⟩ he
      have he : nc info fs np p + i = nc info fs np q + j := congrArg Fin.val he
      have hpi := i.2
      have hqj := j.2
      simp only at hpi hqj
      have hpq : p = q := disj_all h (opt_C h hp) (opt_C h hq) (a := nc info fs np p + i)
        ⟨by omega, by omega⟩ ⟨by omega, by omega⟩
      subst hpq
      have : i = j := Fin.ext (by omega)
      subst this
      rfl
    · intro a
      have ha := a.2
      have hn : (calL info fs).Nodup := (List.nodup_append.mp (lists_nodup (info := info) (fs := fs))).1
      obtain ⟨p, hp, hc⟩ := assign_cover info (calL info fs) hn 0 a (Nat.zero_le _) (by
        rw [Nat.zero_add]
        have := remain_eq h
        unfold totalSize at this
        omega)
      have hpC := (mem_cal h p).mp hp
      have e := (nc_C h hpC).1
      unfold InCol at hc
      rw [← e] at hc
      refine ⟨⟨⟨p, hpC⟩, ⟨a - nc info fs np p, by simp only; omega⟩⟩, Fin.ext ?_⟩
      simp only [f]
      omega
  exact ⟨Equiv.ofBijective f hf, fun _ => rfl⟩

/-- Where the columns of the poses are. -/
noncomputable def place (info : P → ParamInfo) (fs : List (Res ℝ P)) (np : P) (Q : Finset P) (r m : Nat) :
    Matrix (Comp info Q) (Fin m) ℝ :=
  fun x a => if nc info fs np x.1 + x.2 = r + a then 1 else 0

theorem pose_right (h : Scene info cams exts views fs new np C Q) :
    colJ info fs new np Q =
      rangeJ info fs new np (remainSize info cams exts) (views * 6 + 6) *
        (place info fs np Q (remainSize info cams exts) (views * 6 + 6))ᵀ := by
  ext k x
  have h1 := nc_Q h x.1.2
  have hx := x.2.2
  rw [Matrix.mul_apply, Finset.sum_eq_single
    ⟨nc info fs np x.1 + x.2 - remainSize info cams exts, by omega⟩]
  · simp only [transpose_apply, place, rangeJ, colJ]
    rw [if_pos (by omega), mul_one]
    congr 1
    omega
  · intro a _ hne
    simp only [transpose_apply, place]
    rw [if_neg, mul_zero]
    intro he
    exact hne (Fin.ext (by simp only; omega))
  · intro hn
    exact absurd (mem_univ _) hn

theorem pose_left (h : Scene info cams exts views fs new np C Q) :
    rangeJ info fs new np (remainSize info cams exts) (views * 6 + 6) =
      colJ info fs new np Q *
        place info fs np Q (remainSize info cams exts) (views * 6 + 6) := by
  ext k a
  rw [Matrix.mul_apply]
  by_cases hc : ∃ x : Comp info Q, nc info fs np x.1 + x.2 = remainSize info cams exts + a
  · obtain ⟨x, hx⟩ := hc
    rw [Finset.sum_eq_single x]
    · simp only [place, rangeJ, colJ]
      rw [if_pos hx, mul_one, hx]
    · rintro ⟨⟨q, hq⟩, j⟩ _ hne
      obtain ⟨⟨p, hp⟩, i⟩ := x
      simp only [place]
      rw [if_neg, mul_zero]
      intro he
      simp only at hx he
      have hpi := i.2
      have hqj := j.2
      simp only at hpi hqj
      have hpq : p = q := disj_all h (opt_Q h hp) (opt_Q h hq) (a := nc info fs np p + i)
        ⟨by omega, by omega⟩ ⟨by omega, by omega⟩
      subst hpq
      have : i = j := Fin.ext (by omega)
      subst this
      exact hne rfl
    · intro hn
      exact absurd (mem_univ _) hn
  · rw [Finset.sum_eq_zero]
    · simp only [rangeJ]
      apply stackJ_zero
      intro p hp hin
      unfold InCol at hin
      rcases mem_CQ h hp with hC | hQ
      · have := (nc_C h hC).2
        omega
      · exact hc ⟨⟨⟨p, hQ⟩, ⟨remainSize info cams exts + a - nc info fs np p, by simp only; omega⟩⟩,
          by simp only; omega⟩
    · intro x _
      simp only [place]
      rw [if_neg (fun he => hc ⟨x, he⟩), mul_zero]

end Yac.Info
