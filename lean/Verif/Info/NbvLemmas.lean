import Verif.Info.NbvAlgebra
import Verif.Solver.CovLemmas

namespace Yac.Info
open Matrix Yac.Marg Yac.Solver Finset

set_option linter.unusedSectionVars false

variable {P : Type} [DecidableEq P]

/-! ### Sums of products -/

theorem gram_eq (info : P → ParamInfo) (c : P → Nat) (fs : List (Res ℝ P)) (a b : Nat) :
    gram info c fs a b =
      (fs.map (fun f => ∑ k ∈ range f.size, rowG info c f.blocks k a * rowG info c f.blocks k b)).sum := by
  obtain ⟨e, _⟩ := hess_all info c fs (fun _ _ => 0) (fun _ => 0)
  have e : ∀ a b, gram info c fs a b = 0 + ∑ k ∈ range (resLen fs),
    stackJ info c fs k a * stackJ info c fs k b := e
  rw [e, sum_stackJ, zero_add]

theorem rowG_congr (info : P → ParamInfo) (c c' : P → Nat) (bs : List (P × Mat ℝ))
    (h : ∀ b ∈ bs, (info b.1).fixed = false → c b.1 = c' b.1) (k a : Nat) :
    rowG info c bs k a = rowG info c' bs k a := by
  induction bs with
  | nil => rfl
  | cons b bs ih =>
    rw [rowG, rowG, ih (fun x hx => h x (List.mem_cons_of_mem _ hx))]
    congr 1
    by_cases hf : (info b.1).fixed = true
    · rw [if_pos hf, if_pos hf]
    · rw [if_neg hf, if_neg hf]
      have := h b List.mem_cons_self (by simpa using hf)
      simp only [ent, InCol, this]

theorem gram_congr (info : P → ParamInfo) (c c' : P → Nat) (fs : List (Res ℝ P))
    (h : ∀ p, Optimised info fs p → c p = c' p) (a b : Nat) :
    gram info c fs a b = gram info c' fs a b := by
  rw [gram_eq, gram_eq]
  congr 1
  apply List.map_congr_left
  intro f hf
  apply sum_congr rfl
  intro k _
  have hc : ∀ b ∈ f.blocks, (info b.1).fixed = false → c b.1 = c' b.1 :=
    fun b hb hbf => h b.1 ⟨hbf, f, hf, List.mem_map_of_mem hb⟩
  rw [rowG_congr info c c' f.blocks hc, rowG_congr info c c' f.blocks hc]

/-! ### Layout -/

theorem col_last (info : P → ParamInfo) (l : List P) (q : P) (hq : q ∉ l) (i : Nat) :
    col (assign info i (l ++ [q])) q = i + totalSize info l := by
  rw [assign_append, col_append_right _ _ _ (by rw [assign_keys]; exact hq), assign, col_cons,
    if_pos rfl]
  rfl

section
variable {info : P → ParamInfo} {cams exts : List P} {views : Nat} {fs new : List (Res ℝ P)} {np : P}
  {C Q : Finset P}

/-- The calibration parameters of the evaluator, in its order. -/
abbrev calL (info : P → ParamInfo) (fs : List (Res ℝ P)) : List P :=
  (track info (blk fs)).cam ++ (track info (blk fs)).ext

/-- The poses of the evaluator. -/
abbrev poseL (info : P → ParamInfo) (fs : List (Res ℝ P)) : List P := (track info (blk fs)).pose

/-- Columns of all parameters, with the new pose. -/
abbrev nc (info : P → ParamInfo) (fs : List (Res ℝ P)) (np : P) : P → Nat :=
  col (assign info 0 (calL info fs ++ poseL info fs ++ [np]))

theorem opt_left {p : P} (h : Optimised info fs p) : Optimised info (fs ++ new) p :=
  ⟨h.1, h.2.choose, List.mem_append_left _ h.2.choose_spec.1, h.2.choose_spec.2⟩

theorem opt_right {p : P} (h : Optimised info new p) : Optimised info (fs ++ new) p :=
  ⟨h.1, h.2.choose, List.mem_append_right _ h.2.choose_spec.1, h.2.choose_spec.2⟩

theorem opt_append {p : P} (h : Optimised info (fs ++ new) p) :
    Optimised info fs p ∨ Optimised info new p := by
  obtain ⟨hf, f, hm, hp⟩ := h
  rcases List.mem_append.mp hm with h | h
  · exact Or.inl ⟨hf, f, h, hp⟩
  · exact Or.inr ⟨hf, f, h, hp⟩

theorem mem_kind (k : Kind) (hk : k ≠ .other) (p : P) :
    p ∈ (track info (blk fs)).ofKind k ↔ Optimised info fs p ∧ (info p).kind = k := by
  rw [(track_inv info (blk fs)).mem, mem_blocks_flatten]
  unfold Optimised
  constructor
  · rintro ⟨a, b, c, _⟩; exact ⟨⟨b, a⟩, c⟩
  · rintro ⟨⟨a, b⟩, c⟩; exact ⟨b, a, c, hk⟩

theorem mem_pose (p : P) : p ∈ poseL info fs ↔ Optimised info fs p ∧ (info p).kind = .pose :=
  mem_kind .pose (by simp) p

theorem mem_cal (h : Scene info cams exts views fs new np C Q) (p : P) :
    p ∈ calL info fs ↔ p ∈ C := by
  have h1 : p ∈ (track info (blk fs)).cam ↔ _ := mem_kind (info := info) (fs := fs) .camera (by simp) p
  have h2 : p ∈ (track info (blk fs)).ext ↔ _ := mem_kind (info := info) (fs := fs) .extrinsics (by simp) p
  rw [List.mem_append, h1, h2, h.calib]
  constructor
  · rintro (⟨ho, hk⟩ | ⟨ho, hk⟩)
    · rcases h.known p (opt_left ho) with a | a | a
      · exact ⟨Or.inl a, ho.1⟩
      · exact ⟨Or.inr a, ho.1⟩
      · rw [hk] at a; simp at a
    · rcases h.known p (opt_left ho) with a | a | a
      · exact ⟨Or.inl a, ho.1⟩
      · exact ⟨Or.inr a, ho.1⟩
      · rw [hk] at a; simp at a
  · rintro ⟨a | a, hf⟩
    · exact Or.inl ⟨⟨hf, h.cam_used p a⟩, h.cam_kind p a⟩
    · exact Or.inr ⟨⟨hf, h.ext_used p a hf⟩, h.ext_kind p a⟩

theorem lists_nodup : (calL info fs ++ poseL info fs).Nodup := by
  have hi := track_inv info (blk fs)
  have hd : ∀ k k' a b, k ≠ k' → a ∈ (track info (blk fs)).ofKind k →
      b ∈ (track info (blk fs)).ofKind k' → a ≠ b := by
    intro k k' a b hne ha hb he
    subst he
    exact hne (((hi.mem k a).mp ha).2.2.1.symm.trans ((hi.mem k' a).mp hb).2.2.1)
  rw [List.nodup_append, List.nodup_append]
  refine ⟨⟨hi.nd .camera, hi.nd .extrinsics, fun a ha b hb =>
    hd .camera .extrinsics a b (by simp) ha hb⟩, hi.nd .pose, ?_⟩
  intro a ha b hb
  rcases List.mem_append.mp ha with ha | ha
  · exact hd .camera .pose a b (by simp) ha hb
  · exact hd .extrinsics .pose a b (by simp) ha hb

theorem np_notin (h : Scene info cams exts views fs new np C Q) :
    np ∉ calL info fs ++ poseL info fs := by
  intro hm
  have ho : Optimised info fs np := by
    rcases List.mem_append.mp hm with a | a
    · rcases List.mem_append.mp a with a | a
      · exact ((mem_kind .camera (by simp) np).mp a).1
      · exact ((mem_kind .extrinsics (by simp) np).mp a).1
    · exact ((mem_pose np).mp a).1
  obtain ⟨_, f, hf, hp⟩ := ho
  exact h.np_new f hf hp

theorem all_nodup (h : Scene info cams exts views fs new np C Q) :
    (calL info fs ++ poseL info fs ++ [np]).Nodup := by
  rw [List.nodup_append]
  refine ⟨lists_nodup, List.nodup_singleton _, ?_⟩
  intro a ha b hb he
  rw [List.mem_singleton] at hb
  subst hb; subst he
  exact np_notin h ha

/-- `remain_size` is the number of columns of the calibration parameters. -/
theorem remain_eq (h : Scene info cams exts views fs new np C Q) :
    remainSize info cams exts = totalSize info (calL info fs) := by
  have hi := track_inv info (blk fs)
  have p1 : (track info (blk fs)).cam.Perm cams := by
    rw [List.perm_ext_iff_of_nodup
      (show (track info (blk fs)).cam.Nodup from hi.nd .camera) h.cams_nodup]
    intro p
    have h1 := mem_kind (info := info) (fs := fs) .camera (by simp) p
    have h1 : p ∈ (track info (blk fs)).cam ↔ _ := h1
    rw [h1]
    constructor
    · rintro ⟨ho, hk⟩
      rcases h.known p (opt_left ho) with a | a | a
      · exact a
      · have := h.ext_kind p a; rw [hk] at this; simp at this
      · rw [hk] at a; simp at a
    · intro a
      exact ⟨⟨h.cam_free p a, h.cam_used p a⟩, h.cam_kind p a⟩
  have p2 : (track info (blk fs)).ext.Perm (exts.filter (fun p => !(info p).fixed)) := by
    rw [List.perm_ext_iff_of_nodup
      (show (track info (blk fs)).ext.Nodup from hi.nd .extrinsics) (h.exts_nodup.filter _)]
    intro p
    have h1 := mem_kind (info := info) (fs := fs) .extrinsics (by simp) p
    have h1 : p ∈ (track info (blk fs)).ext ↔ _ := h1
    rw [h1, List.mem_filter]
    constructor
    · rintro ⟨ho, hk⟩
      refine ⟨?_, by simp [ho.1]⟩
      rcases h.known p (opt_left ho) with a | a | a
      · have := h.cam_kind p a; rw [hk] at this; simp at this
      · exact a
      · rw [hk] at a; simp at a
    · rintro ⟨a, hf⟩
      have hf : (info p).fixed = false := by simpa using hf
      exact ⟨⟨hf, h.ext_used p a hf⟩, h.ext_kind p a⟩
  unfold remainSize
  rw [total_append]
  unfold totalSize
  rw [(p1.map _).sum_eq, (p2.map _).sum_eq]

theorem pose_size (h : Scene info cams exts views fs new np C Q) {p : P}
    (ho : Optimised info (fs ++ new) p) (hk : (info p).kind = .pose) : (info p).size = 6 := by
  rcases h.known p ho with a | a | a
  · have := h.cam_kind p a; rw [hk] at this; simp at this
  · have := h.ext_kind p a; rw [hk] at this; simp at this
  · exact a.2

theorem poseL_total (h : Scene info cams exts views fs new np C Q) :
    totalSize info (poseL info fs) ≤ views * 6 := by
  have h1 : totalSize info (poseL info fs) = (poseL info fs).length * 6 := by
    unfold totalSize
    rw [List.map_congr_left (g := fun _ => 6)]
    · simp
    · intro p hp
      have := (mem_pose p).mp hp
      exact pose_size h (opt_left this.1) this.2
  rw [h1]
  apply Nat.mul_le_mul_right
  have hn : (poseL info fs).Nodup := (track_inv info (blk fs)).nd .pose
  have := h.few (poseL info fs).toFinset (by
    intro p hp
    exact (mem_pose p).mp (List.mem_toFinset.mp hp))
  rwa [List.toFinset_card_of_nodup hn] at this

theorem mem_all (h : Scene info cams exts views fs new np C Q) {p : P}
    (ho : Optimised info (fs ++ new) p) : p ∈ calL info fs ++ poseL info fs ++ [np] := by
  rw [List.mem_append, List.mem_append, List.mem_singleton]
  rcases h.known p ho with a | a | a
  · exact Or.inl (Or.inl ((mem_cal h p).mpr ((h.calib p).mpr ⟨Or.inl a, ho.1⟩)))
  · exact Or.inl (Or.inl ((mem_cal h p).mpr ((h.calib p).mpr ⟨Or.inr a, ho.1⟩)))
  · rcases opt_append ho with hf | hn
    · exact Or.inl (Or.inr ((mem_pose p).mpr ⟨hf, a.1⟩))
    · exact Or.inr (h.new_pose p hn a.1)

/-- The columns of the evaluator are a part of `nc`. -/
theorem order_col (p : P) (hp : p ∈ calL info fs ++ poseL info fs) :
    col (nbvOrder info (blk fs)) p = nc info fs np p := by
  unfold nc nbvOrder
  rw [assign_append info (calL info fs ++ poseL info fs) [np], col_append_left _ _ _ (by
    rw [assign_keys]; exact hp)]

theorem nc_np (h : Scene info cams exts views fs new np C Q) :
    nc info fs np np = totalSize info (calL info fs ++ poseL info fs) := by
  unfold nc
  rw [col_last _ _ _ (np_notin h), Nat.zero_add]

theorem pose_last (h : Scene info cams exts views fs new np C Q) :
    ∃ q, (poseL info fs).getLast? = some q ∧
      col (nbvOrder info (blk fs)) q + 6 = totalSize info (calL info fs ++ poseL info fs) := by
  obtain ⟨p0, h0⟩ := h.some_view
  have hne : poseL info fs ≠ [] := List.ne_nil_of_mem ((mem_pose p0).mpr h0)
  refine ⟨(poseL info fs).getLast hne, List.getLast?_eq_some_getLast hne, ?_⟩
  have hsplit := List.dropLast_append_getLast hne
  have hq := (mem_pose (info := info) (fs := fs) _).mp (List.getLast_mem hne)
  have hs := pose_size h (opt_left hq.1) hq.2
  have hnd : (calL info fs ++ poseL info fs).Nodup := lists_nodup
  set q := (poseL info fs).getLast hne
  have e : calL info fs ++ poseL info fs = (calL info fs ++ (poseL info fs).dropLast) ++ [q] := by
    rw [List.append_assoc (calL info fs), hsplit]
  have hq' : q ∉ calL info fs ++ (poseL info fs).dropLast := by
    rw [e, List.nodup_append] at hnd
    intro hm
    exact hnd.2.2 q hm q (List.mem_singleton.mpr rfl) rfl
  unfold nbvOrder
  show col (assign info 0 (calL info fs ++ poseL info fs)) q + 6 = _
  rw [e, col_last _ _ _ hq', Nat.zero_add, total_append]
  simp [totalSize, hs]
  omega

end
end Yac.Info
