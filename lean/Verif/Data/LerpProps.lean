import Verif.Data.LerpModel
import Verif.AprilGrid.Lemmas

/-!
# C94: a pose for every grid by interpolation between the samples of the body
-/

namespace Yac.Data

variable {P Q G : Type}

/-- The pose of time `t` was interpolated between two samples, `t` is not before the first
and before the second, and no other sample lies between them, unless it is at `t`. -/
def Bracketed (lerp : Int → P → Int → P → Int → Q) (offset : Int) (body : List (Int × P)) (t : Int)
    (q : Q) : Prop :=
  ∃ a ∈ body, ∃ b ∈ body, q = lerp (a.1 + offset) a.2 (b.1 + offset) b.2 t ∧
    a.1 + offset ≤ t ∧ t < b.1 + offset ∧
    ∀ c ∈ body, c.1 ≤ a.1 ∨ b.1 ≤ c.1 ∨ c.1 + offset = t

/-- The second loop as a recursion over samples and remaining timestamps. -/
def walk (lerp : Int → P → Int → P → Int → Q) (offset : Int) :
    List (Int × P) → Int → P → List Int → List Q
  | [], _, _, _ => []
  | _ :: _, _, _, [] => []
  | b :: l, t0, p0, t :: ts =>
    if b.1 + offset < t then walk lerp offset l (b.1 + offset) b.2 (t :: ts)
    else if t < b.1 + offset then
      lerp t0 p0 (b.1 + offset) b.2 t :: walk lerp offset l (b.1 + offset) b.2 ts
    else walk lerp offset l t0 p0 (t :: ts)

theorem walk_nil (lerp : Int → P → Int → P → Int → Q) (offset : Int) (l : List (Int × P)) (t0 : Int)
    (p0 : P) : walk lerp offset l t0 p0 [] = [] := by
  cases l <;> rfl

theorem fold_walk (lerp : Int → P → Int → P → Int → Q) (offset : Int) (gts : List Int) (hne : gts ≠ []) :
    ∀ (l : List (Int × P)) (s : LerpState P Q), s.idx ≤ gts.length →
      ∃ s', l.foldlM (lerpStep lerp offset gts) s = .ok s' ∧
        s'.out = s.out ++ walk lerp offset l s.t0 s.pose0 (gts.drop s.idx)
  | [], s, _ => ⟨s, rfl, by simp [walk]⟩
  | b :: l, s, hi => by
    have hpos : 0 < gts.length := List.length_pos_iff.mpr hne
    rw [List.foldlM_cons]
    by_cases hend : s.idx > gts.length - 1
    · have h1 : lerpStep lerp offset gts s b = .ok s := by
        rw [lerpStep, if_pos ⟨hne, hend⟩]
      rw [h1, AprilGrid.ok_bind]
      obtain ⟨s', a1, a2⟩ := fold_walk lerp offset gts hne l s hi
      have hd : gts.drop s.idx = [] := by rw [List.drop_eq_nil_iff]; omega
      exact ⟨s', a1, by rw [a2, hd, walk_nil, walk_nil]⟩
    · have hlt : s.idx < gts.length := by omega
      have hd : gts.drop s.idx = gts[s.idx] :: gts.drop (s.idx + 1) := by
        rw [List.drop_eq_getElem_cons hlt]
      have hg : gts[s.idx]? = some gts[s.idx] := List.getElem?_eq_getElem hlt
      generalize hgt : gts[s.idx] = t at hd hg
      by_cases h1 : b.1 + offset < t
      · have e : lerpStep lerp offset gts s b = .ok { s with t0 := b.1 + offset, pose0 := b.2 } := by
          rw [lerpStep, if_neg (fun h => hend h.2)]
          simp only [hg]
          rw [if_pos h1, if_neg (by omega)]
        rw [e, AprilGrid.ok_bind]
        obtain ⟨s', a1, a2⟩ := fold_walk lerp offset gts hne l (s := { s with t0 := b.1 + offset, pose0 := b.2 }) hi
        refine ⟨s', a1, ?_⟩
        rw [a2]
        simp only [hd]
        rw [walk, if_pos h1]
      · by_cases h2 : t < b.1 + offset
        · have e : lerpStep lerp offset gts s b = .ok ⟨b.1 + offset, b.2, s.idx + 1,
              s.out ++ [lerp s.t0 s.pose0 (b.1 + offset) b.2 t]⟩ := by
            rw [lerpStep, if_neg (fun h => hend h.2)]
            simp only [hg]
            rw [if_neg h1, if_pos h2]
          rw [e, AprilGrid.ok_bind]
          obtain ⟨s', a1, a2⟩ := fold_walk lerp offset gts hne l
            (s := ⟨b.1 + offset, b.2, s.idx + 1, s.out ++ [lerp s.t0 s.pose0 (b.1 + offset) b.2 t]⟩) hlt
          refine ⟨s', a1, ?_⟩
          rw [a2, hd, walk, if_neg h1, if_pos h2]
          simp
        · have e : lerpStep lerp offset gts s b = .ok s := by
            rw [lerpStep, if_neg (fun h => hend h.2)]
            simp only [hg]
            rw [if_neg h1, if_neg h2]
          rw [e, AprilGrid.ok_bind]
          obtain ⟨s', a1, a2⟩ := fold_walk lerp offset gts hne l s hi
          refine ⟨s', a1, ?_⟩
          rw [a2, hd, walk, if_neg h1, if_neg h2]

theorem walk_length (lerp : Int → P → Int → P → Int → Q) (offset : Int) :
    ∀ (l : List (Int × P)) (t0 : Int) (p0 : P) (ts : List Int),
      (walk lerp offset l t0 p0 ts).length ≤ ts.length ∧ (walk lerp offset l t0 p0 ts).length ≤ l.length
  | [], _, _, _ => by simp [walk]
  | _ :: _, _, _, [] => by simp [walk]
  | b :: l, t0, p0, t :: ts => by
    rw [walk]
    split_ifs
    · have := walk_length lerp offset l (b.1 + offset) b.2 (t :: ts)
      exact ⟨this.1, by simp only [List.length_cons]; omega⟩
    · have := walk_length lerp offset l (b.1 + offset) b.2 ts
      simp only [List.length_cons]; omega
    · have := walk_length lerp offset l t0 p0 (t :: ts)
      exact ⟨this.1, by simp only [List.length_cons]; omega⟩

theorem walk_spec (lerp : Int → P → Int → P → Int → Q) (offset : Int) (body : List (Int × P)) :
    ∀ (l pre : List (Int × P)) (a : Int × P) (ts : List Int), body = pre ++ l →
      body.Pairwise (fun x y => x.1 < y.1) → a ∈ pre →
      (∀ t ∈ ts.head?, a.1 + offset ≤ t ∧ ∀ c ∈ pre, c.1 ≤ a.1 ∨ c.1 + offset = t) →
      ts.Pairwise (fun t u => ∃ b ∈ body, t < b.1 + offset ∧ b.1 + offset ≤ u) →
      (∀ t ∈ ts, ∃ b ∈ body, t < b.1 + offset) →
      List.Forall₂ (Bracketed lerp offset body) ts (walk lerp offset l (a.1 + offset) a.2 ts)
  | l, pre, a, [], _, _, _, _, _, _ => by rw [walk_nil]; exact .nil
  | [], pre, a, t :: ts, hb, hs, ha, hpre, _, hlast => by
    exfalso
    obtain ⟨b, hb', hlt⟩ := hlast t (by simp)
    obtain ⟨h1, h2⟩ := hpre t (by simp)
    rw [hb, List.append_nil] at hb'
    rcases h2 b hb' with h | h <;> omega
  | b :: l, pre, a, t :: ts, hb, hs, ha, hpre, hgap, hlast => by
    obtain ⟨h1, h2⟩ := hpre t (by simp)
    have hbm : b ∈ body := by rw [hb]; simp
    have ham : a ∈ body := by rw [hb]; simp [ha]
    have hs' := hs
    rw [hb, List.pairwise_append] at hs'
    obtain ⟨_, hl, hpl⟩ := hs'
    rw [List.pairwise_cons] at hl
    have hpb : ∀ c ∈ pre, c.1 < b.1 := fun c hc => hpl c hc b (by simp)
    have hb2 : body = (pre ++ [b]) ++ l := by rw [hb]; simp
    rw [walk]
    by_cases k1 : b.1 + offset < t
    · rw [if_pos k1]
      refine walk_spec lerp offset body l (pre ++ [b]) b (t :: ts) hb2 hs (by simp) ?_ hgap hlast
      intro u hu
      simp only [List.head?_cons, Option.mem_def, Option.some.injEq] at hu
      subst hu
      refine ⟨by omega, fun c hc => ?_⟩
      rw [List.mem_append, List.mem_singleton] at hc
      rcases hc with hc | rfl
      · have := hpb c hc; left; omega
      · left; omega
    · rw [if_neg k1]
      by_cases k2 : t < b.1 + offset
      · rw [if_pos k2]
        refine .cons ⟨a, ham, b, hbm, rfl, h1, k2, ?_⟩ ?_
        · intro c hc
          rw [hb, List.mem_append, List.mem_cons] at hc
          rcases hc with hc | rfl | hc
          · rcases h2 c hc with h | h
            · exact .inl h
            · exact .inr (.inr h)
          · exact .inr (.inl (le_refl _))
          · exact .inr (.inl (by have := hl.1 c hc; omega))
        · rw [List.pairwise_cons] at hgap
          refine walk_spec lerp offset body l (pre ++ [b]) b ts hb2 hs (by simp) ?_ hgap.2
            (fun u hu => hlast u (by simp [hu]))
          intro u hu
          have hu' : u ∈ ts := List.mem_of_mem_head? hu
          obtain ⟨c, hc, hc1, hc2⟩ := hgap.1 u hu'
          have hbc : b.1 ≤ c.1 := by
            rw [hb, List.mem_append, List.mem_cons] at hc
            rcases hc with hc | rfl | hc
            · rcases h2 c hc with h | h <;> omega
            · omega
            · have := hl.1 c hc; omega
          refine ⟨by omega, fun d hd => ?_⟩
          rw [List.mem_append, List.mem_singleton] at hd
          rcases hd with hd | rfl
          · have := hpb d hd; left; omega
          · left; omega
      · rw [if_neg k2]
        refine walk_spec lerp offset body l (pre ++ [b]) a (t :: ts) hb2 hs (by simp [ha]) ?_ hgap hlast
        intro u hu
        simp only [List.head?_cons, Option.mem_def, Option.some.injEq] at hu
        subst hu
        refine ⟨h1, fun c hc => ?_⟩
        rw [List.mem_append, List.mem_singleton] at hc
        rcases hc with hc | rfl
        · exact h2 c hc
        · right; omega

theorem between_ok (ts : G → Int) (grids : List G) (f : Int × P) (body : List (Int × P)) :
    between ts grids (f :: body) = .ok (grids.filter (fun g => decide (ts g > f.1) &&
      decide (ts g < ((f :: body).getLast (by simp)).1))) := by
  rw [between, List.getLast?_eq_some_getLast (by simp)]
  rfl

/-- The grids between the first and the last sample. -/
def kept (ts : G → Int) (grids : List G) (first last : Int) : List G :=
  grids.filter (fun g => decide (first < ts g ∧ ts g < last))

theorem between_kept (ts : G → Int) (grids : List G) {f l : Int × P} {body : List (Int × P)}
    (hf : body.head? = some f) (hl : body.getLast? = some l) :
    between ts grids body = .ok (kept ts grids f.1 l.1) := by
  rw [between, hf, hl]
  simp only [kept]
  congr 1
  refine List.filter_congr (fun g _ => ?_)
  simp [gt_iff_lt]

/-- C94: exactly the grids strictly between the first and the last sample are kept, in their
order; there is never more than one pose for a grid.  If the samples are in chronological
order and the grids too, if after the shift every grid kept still lies between the first and
the last sample, and if between two grids there is always a sample (after the first and not
after the second), then every grid kept has its pose, at the same position, interpolated
between the samples around its time. -/
theorem C94_lerp_partial (lerp : Int → P → Int → P → Int → Q) (one : P) (ts : G → Int) (grids : List G)
    (body : List (Int × P)) (offset : Int) (f l : Int × P) (hf : body.head? = some f)
    (hl : body.getLast? = some l) (hne : kept ts grids f.1 l.1 ≠ []) :
    ∃ poses, lerpBodyPoses lerp one ts grids body offset = .ok (kept ts grids f.1 l.1, poses) ∧
      poses.length ≤ (kept ts grids f.1 l.1).length ∧ poses.length ≤ body.length ∧
      (body.Pairwise (fun x y => x.1 < y.1) →
        (∀ g ∈ kept ts grids f.1 l.1, f.1 + offset < ts g ∧ ts g < l.1 + offset) →
        (kept ts grids f.1 l.1).Pairwise (fun g h => ∃ b ∈ body, ts g < b.1 + offset ∧ b.1 + offset ≤ ts h) →
        List.Forall₂ (fun g q => Bracketed lerp offset body (ts g) q) (kept ts grids f.1 l.1) poses) := by
  have hb := between_kept ts grids hf hl
  obtain ⟨s', a1, a2⟩ := fold_walk lerp offset ((kept ts grids f.1 l.1).map ts) (by simpa using hne) body
    ⟨0, one, 0, []⟩ (Nat.zero_le _)
  simp only [List.drop_zero, List.nil_append] at a2
  have hlen := walk_length lerp offset body 0 one ((kept ts grids f.1 l.1).map ts)
  rw [List.length_map] at hlen
  refine ⟨s'.out, ?_, by rw [a2]; exact hlen.1, by rw [a2]; exact hlen.2, ?_⟩
  · rw [lerpBodyPoses, hb, AprilGrid.ok_bind, a1, AprilGrid.ok_bind]
  · intro hs hr hg
    rw [a2]
    obtain ⟨body', rfl⟩ : ∃ body', body = f :: body' := by
      cases body with
      | nil => simp at hf
      | cons x xs => simp at hf; exact ⟨xs, by rw [hf]⟩
    cases hk : kept ts grids f.1 l.1 with
    | nil => exact absurd hk hne
    | cons g gs =>
      rw [hk] at hr hg
      have h0 := hr g (by simp)
      rw [List.map_cons, walk, if_pos h0.1, ← List.map_cons (f := ts)]
      have := walk_spec lerp offset (f :: body') body' [f] f ((g :: gs).map ts) rfl hs (by simp) (by
          intro t ht
          simp only [List.map_cons, List.head?_cons, Option.mem_def, Option.some.injEq] at ht
          subst ht
          exact ⟨le_of_lt h0.1, fun c hc => by simp at hc; subst hc; left; omega⟩)
        (by rw [List.pairwise_map]; exact hg)
        (by
          intro t ht
          obtain ⟨h, hh, rfl⟩ := List.mem_map.mp ht
          exact ⟨l, List.mem_of_getLast? hl, (hr h hh).2⟩)
      rwa [List.forall₂_map_left_iff] at this

/-- C94: under these conditions the number of poses is that of the grids. -/
theorem C94_count_partial (lerp : Int → P → Int → P → Int → Q) (one : P) (ts : G → Int) (grids : List G)
    (body : List (Int × P)) (f l : Int × P) (hf : body.head? = some f)
    (hl : body.getLast? = some l) (hne : kept ts grids f.1 l.1 ≠ [])
    (hs : body.Pairwise (fun x y => x.1 < y.1))
    (hg : grids.Pairwise (fun g h => ∃ b ∈ body, ts g < b.1 ∧ b.1 ≤ ts h)) :
    ∃ poses, lerpBodyPoses lerp one ts grids body 0 = .ok (kept ts grids f.1 l.1, poses) ∧
      poses.length = (kept ts grids f.1 l.1).length := by
  obtain ⟨poses, h1, _, _, h4⟩ := C94_lerp_partial lerp one ts grids body 0 f l hf hl hne
  refine ⟨poses, h1, (List.Forall₂.length_eq (h4 hs ?_ ?_)).symm⟩
  · intro g hgm
    have := (List.mem_filter.mp hgm).2
    simpa using this
  · refine List.Pairwise.sublist List.filter_sublist ?_
    simpa using hg

/-- C94 is false if no grid lies between the first and the last sample: memory past the end
of an empty array is read. -/
theorem C94_none_refuted (lerp : Int → P → Int → P → Int → Q) (one : P) (ts : G → Int) (grids : List G)
    (body : List (Int × P)) (offset : Int) (f l : Int × P) (hf : body.head? = some f)
    (hl : body.getLast? = some l) (hno : ∀ g ∈ grids, ¬ (f.1 < ts g ∧ ts g < l.1)) :
    lerpBodyPoses lerp one ts grids body offset = .error .oob := by
  have hk : kept ts grids f.1 l.1 = [] := by
    rw [kept, List.filter_eq_nil_iff]
    intro g hg
    simpa using hno g hg
  obtain ⟨body', rfl⟩ : ∃ body', body = f :: body' := by
    cases body with
    | nil => simp at hf
    | cons x xs => simp at hf; exact ⟨xs, by rw [hf]⟩
  rw [lerpBodyPoses, between_kept ts grids hf hl, AprilGrid.ok_bind, hk, List.foldlM_cons]
  rfl

/-- C94 is false if several grids lie between two samples: with two samples there is one
pose, however many grids. -/
theorem C94_dense_refuted (lerp : Int → P → Int → P → Int → Q) (one : P) (ts : G → Int) (grids : List G)
    (a b : Int × P) (hin : ∀ g ∈ grids, a.1 < ts g ∧ ts g < b.1) (h2 : 2 ≤ grids.length) :
    ∃ poses, lerpBodyPoses lerp one ts grids [a, b] 0 = .ok (grids, poses) ∧ poses.length = 1 ∧
      poses.length < grids.length := by
  have hk : kept ts grids a.1 b.1 = grids := by
    rw [kept, List.filter_eq_self]
    intro g hg; simpa using hin g hg
  obtain ⟨g, gs, rfl⟩ : ∃ g gs, grids = g :: gs := by
    cases grids with
    | nil => simp at h2
    | cons g gs => exact ⟨g, gs, rfl⟩
  obtain ⟨s', a1, a2⟩ := fold_walk lerp 0 ((g :: gs).map ts) (by simp) [a, b] ⟨0, one, 0, []⟩ (Nat.zero_le _)
  have hg := hin g (by simp)
  have hw : walk lerp 0 [a, b] 0 one ((g :: gs).map ts) = [lerp a.1 a.2 b.1 b.2 (ts g)] := by
    rw [List.map_cons, walk, if_pos (by omega), walk, if_neg (by omega), if_pos (by omega)]
    simp [walk]
  simp only [List.drop_zero, List.nil_append] at a2
  refine ⟨s'.out, ?_, by rw [a2, hw]; rfl, by rw [a2, hw]; simp only [List.length_cons, List.length_nil] at *; omega⟩
  rw [lerpBodyPoses, between_kept ts _ (f := a) (l := b) rfl rfl, AprilGrid.ok_bind, hk, a1, AprilGrid.ok_bind]

end Yac.Data
