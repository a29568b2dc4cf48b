import Verif.Report.MoreProps
import Verif.Mocap.Props

/-! # C136: the poses of the motion capture calibration, and the table of reprojection errors -/

namespace Yac.Report
open Yac.Text Yac.Fmt Yac.Csv

/-- **C136, the motion capture poses.**  After a calibration the table of poses has the announced size exactly when the target
could be located in every frame that has a pose. -/
theorem C136_mocap_poses {K : Type} [Field K] [LinearOrder K] {rows cols : ℕ} (env : Mocap.Env K) {s s' : Mocap.Cal K}
    (h : Mocap.Created rows cols s) (hs : Mocap.solve env s = .ok s') (num : (Fin 7 → K) → Fin 7 → ℚ) :
    TableIs (posesTable s'.views.length (s'.est.poses.map (fun e => (e.1, num e.2))))
      (s'.est.poses.map (fun e => IntCell e.1 :: poseMeans (num e.2))) ↔
    ∀ ts, (SMap.find ts s.est.poses).isSome → (SMap.find ts s.grids).isSome := by
  obtain ⟨s1, s2, s3, h1, -, e1, hv1, -, e2, hv2, -, e3⟩ := Mocap.C93_solve_partial env h
  rw [hs] at h1
  cases h1
  obtain ⟨w, -, -, -, -, hp⟩ := h.fresh
  have hviews : s'.views.length = s.grids.length := by
    have : s'.views.map Prod.fst = s.grids.map Prod.fst := by rw [e3]; exact hv2.trans hv1
    simpa using congrArg List.length this
  have hposes : s'.est.poses.length = s.est.poses.length := by
    rw [e3]
    show (Mocap.freed s2 (env.full s2)).poses.length = _
    unfold Mocap.freed
    rw [List.length_map, e2]
    show (Mocap.freed s1 (env.full s1)).poses.length = _
    unfold Mocap.freed
    rw [List.length_map, e1]
  have hc := (C136_poses s'.views.length (s'.est.poses.map (fun e => (e.1, num e.2)))).2.2
  rw [List.map_map] at hc
  refine Iff.trans hc ?_
  rw [List.length_map, hviews, hposes]
  have hnd := SMap.sorted_nodup w.psorted
  have hgd := SMap.sorted_nodup w.gsorted
  have hsub : s.grids.map Prod.fst ⊆ s.est.poses.map Prod.fst := by
    intro t ht
    exact SMap.find_isSome.mp (hp t (SMap.find_isSome.mpr ht))
  constructor
  · intro hl ts hts
    have hperm := (List.subperm_of_subset hgd hsub).perm_of_length_le (by simp [hl])
    exact SMap.find_isSome.mpr (hperm.mem_iff.mpr (SMap.find_isSome.mp hts))
  · intro hall
    have hk := SMap.keys_eq w.gsorted w.psorted (fun k => by
      rw [Bool.eq_iff_iff]
      exact ⟨fun x => hp k x, fun x => hall k x⟩)
    simpa using congrArg List.length hk

/-! ### Reprojection errors -/

/-- The texts of a corner. -/
def cornerTokens (cam ts : ℤ) (a : Bool) (c : Corner) : List Str :=
  [fmtLd cam, fmtLd ts, flagText a, fmtLd c.tag, fmtLd c.corner, fmtF c.z.1, fmtF c.z.2, fmtF c.zhat.1, fmtF c.zhat.2, fmtF c.res.1, fmtF c.res.2]

theorem eleven (a b c d e f g h i j k : Str) :
    "    ".toList ++ a ++ ", ".toList ++ b ++ ", ".toList ++ c ++ ",".toList ++ d ++ ", ".toList ++ e ++ ", ".toList ++ f ++ ", ".toList ++ g ++
      ", ".toList ++ h ++ ", ".toList ++ i ++ ", ".toList ++ j ++ ", ".toList ++ k =
    weave [("    ".toList, a), (" ".toList, b), (" ".toList, c), ([], d), (" ".toList, e), (" ".toList, f), (" ".toList, g), (" ".toList, h),
      (" ".toList, i), (" ".toList, j), (" ".toList, k)] := by
  simp [weave]

theorem err_row (cam ts : ℤ) (a : Bool) (c : Corner) : RowText (errRow cam ts a c) (cornerTokens cam ts a c) := by
  refine ⟨_, ?_, ?_, eleven _ _ _ _ _ _ _ _ _ _ _, ?_⟩
  · simp
  · intro p hp
    simp only [List.mem_cons, List.not_mem_nil, or_false] at hp
    rcases hp with rfl | rfl | rfl | rfl | rfl | rfl | rfl | rfl | rfl | rfl | rfl
    · exact ⟨blank_four, Save.token_fmtLd _⟩
    · exact ⟨blank_one, Save.token_fmtLd _⟩
    · exact ⟨blank_one, token_flag _⟩
    · exact ⟨(by intro c hc; cases hc), Save.token_fmtLd _⟩
    · exact ⟨blank_one, Save.token_fmtLd _⟩
    all_goals exact ⟨blank_one, token_fmtF _⟩
  · simp only [List.map_cons, List.map_nil, cornerTokens]

theorem commas_weave {l : List (Str × Str)} (hl : ∀ p ∈ l, Piece p) (hn : l ≠ []) : (weave l).count ',' + 1 = l.length := by
  induction l with
  | nil => exact absurd rfl hn
  | cons a t ih =>
    have ha : (a.1 ++ a.2).count ',' = 0 := List.count_eq_zero.mpr (not_mem_blank (hl a (by simp)).1 (hl a (by simp)).2)
    cases t with
    | nil => show (a.1 ++ a.2).count ',' + 1 = 1; rw [ha]
    | cons b t =>
      have := ih (fun p hp => hl p (by simp [hp])) (by simp)
      show (a.1 ++ a.2 ++ ",".toList ++ weave (b :: t)).count ',' + 1 = _
      rw [List.count_append, List.count_append, ha, List.length_cons, ← this]
      show 0 + 1 + _ + 1 = _
      omega

theorem commas_row {text : Str} {tokens : List Str} (h : RowText text tokens) : text.count ',' + 1 = tokens.length := by
  obtain ⟨l, h1, h2, rfl, rfl⟩ := h
  rw [commas_weave h2 h1, List.length_map]

theorem getAll_count (d : Char) (l : List Char) : (getAll d l).length ≤ l.count d + 1 := by
  fun_induction getAll d l with
  | case1 => simp
  | case2 => simp_all
  | case3 => simp_all
  | case4 => simp_all

theorem items_count (l : Str) : (items l).length ≤ l.count ',' + 1 := by
  have : (cells l).length ≤ l.count ',' + 1 := by
    unfold cells
    rw [List.length_map]
    exact getAll_count ',' l
  unfold items
  split_ifs
  · rw [List.length_dropLast]; omega
  · exact this

theorem err_group {h : Hist} {ts : ℤ} {a : Bool} (ha : SMap.find ts h.accepted = some a) (cam : ℤ) (cs : List Corner) :
    errGroup h ts cam cs = .ok (glue (cs.map (errRow cam ts a))) := by
  unfold errGroup
  rw [mapM_ok cs _ (errRow cam ts a) (fun c _ => by rw [at_find ha]; rfl)]
  rfl

/-- The table when every view was tracked. -/
theorem err_table {h : Hist} (acc : ℤ → Bool) (views : List (ℤ × List (ℤ × List Corner)))
    (ha : ∀ v ∈ views, SMap.find v.1 h.accepted = some (acc v.1)) :
    errTable h views = .ok ⟨((views.flatMap (fun v => v.2.flatMap Prod.snd)).filter Corner.ok).length, 11,
      body ((views.flatMap (fun v => v.2.map (fun c => (v.1, c)))).map (fun g => glue (g.2.2.map (errRow g.2.1 g.1 (acc g.1))))).flatten⟩ := by
  unfold errTable
  rw [mapM_ok _ _ (fun g => glue (g.2.2.map (errRow g.2.1 g.1 (acc g.1))))]
  · rfl
  · intro g hg
    obtain ⟨v, hv, hg⟩ := List.mem_flatMap.mp hg
    obtain ⟨c, -, rfl⟩ := List.mem_map.mp hg
    exact err_group (ha v hv) _ _

/-- **C136, the errors.**  With one view of one camera whose corners are all projected into the image, the table has the
announced size and a row for every corner: camera, time, acceptance, tag, corner, measured and predicted keypoint, difference. -/
theorem C136_errors_partial (snaps : List Snap) (s : Snap) (hs : s ∈ snaps) (cam : ℤ) (cs : List Corner) (hok : ∀ c ∈ cs, c.ok = true) :
    ∃ t, errTable (after snaps) [(s.ts, [(cam, cs)])] = .ok t ∧
      TableIs t (cs.map (cornerMeans cam s.ts (shown snaps s).accepted)) := by
  have ha : SMap.find s.ts (after snaps).accepted = some (shown snaps s).accepted := by
    rw [after_find Hist.accepted Snap.accepted rfl (fun _ _ => rfl), lastAt_some hs]; rfl
  refine ⟨⟨cs.length, 11, body (glue (cs.map (errRow cam s.ts (shown snaps s).accepted)))⟩, ?_, ?_⟩
  · have hf : cs.filter Corner.ok = cs := List.filter_eq_self.mpr hok
    rw [err_table (fun _ => (shown snaps s).accepted) _ (by intro v hv; simp at hv; subst hv; exact ha)]
    simp [hf]
  · refine table_is cs _ (cornerTokens cam s.ts (shown snaps s).accepted) _ _ 11 rfl (fun _ _ => rfl) (fun c _ => err_row _ _ _ c) ?_
    intro c hc
    have hr : c.res = (c.z.1 - c.zhat.1, c.z.2 - c.zhat.2) := by
      unfold Corner.res
      rw [if_pos (hok c hc)]
    refine .cons (says_int _).2 (.cons (says_int _).2 (.cons (int_flag _) (.cons (says_int _).2 (.cons (says_int _).2
      (.cons (says_fix _).2 (.cons (says_fix _).2 (.cons (says_fix _).2 (.cons (says_fix _).2 (.cons ?_ (.cons ?_ .nil))))))))))
    · rw [hr]; exact (says_fix _).2
    · rw [hr]; exact (says_fix _).2

/-- **C136, never tracked.**  A view with corners whose time was not tracked (as in a calibration without next best views, where
nothing is) makes the report throw. -/
theorem C136_errors_untracked (snaps : List Snap) (ts cam : ℤ) (cs : List Corner) (hc : cs ≠ [])
    (hn : ∀ s ∈ snaps, s.ts ≠ ts) (rest : List (ℤ × List Corner)) (views : List (ℤ × List (ℤ × List Corner))) :
    errTable (after snaps) ((ts, (cam, cs) :: rest) :: views) = .error .exn := by
  have ha : SMap.find ts (after snaps).accepted = none := by
    rw [after_find Hist.accepted Snap.accepted rfl (fun _ _ => rfl)]
    have : snaps.filter (fun s => decide (s.ts = ts)) = [] := by
      rw [List.filter_eq_nil_iff]
      intro s hs
      simpa using hn s hs
    unfold lastAt
    rw [this]
    rfl
  have hg : errGroup (after snaps) ts cam cs = .error .exn := by
    obtain ⟨c, t, rfl⟩ := List.exists_cons_of_ne_nil hc
    unfold errGroup atKey
    rw [List.mapM_cons, ha]
    rfl
  unfold errTable
  rw [List.flatMap_cons, List.map_cons, List.cons_append, List.mapM_cons]
  rw [hg]
  rfl

/-- Two corners, of which one is projected into the image. -/
def corner (ok : Bool) : Corner := ⟨1, 2, (3, 4), ok, if ok then some (3, 4) else none⟩

/-- **C136, refuted.**  With two cameras there is no comma between the rows of the first and those of the second, so that there
are fewer entries than announced; and a corner that is not projected has a row that is not counted. -/
theorem C136_errors_refuted :
    (∃ t, errTable (after [tiny]) [(5, [(0, [corner true]), (1, [corner true])])] = .ok t ∧ (items t.data).length < t.rows * t.cols) ∧
    (∃ t, errTable (after [tiny]) [(5, [(0, [corner false])])] = .ok t ∧ (items t.data).length > t.rows * t.cols) := by
  have ha : SMap.find 5 (after [tiny]).accepted = some true := rfl
  constructor
  · refine ⟨_, err_table (fun _ => true) _ (by intro v hv; simp at hv; subst hv; exact ha), ?_⟩
    show (items (body (glue [errRow 0 5 true (corner true)] ++ (glue [errRow 1 5 true (corner true)] ++ [])))).length < 2 * 11
    have h0 := commas_row (err_row 0 5 true (corner true))
    have h1 := commas_row (err_row 1 5 true (corner true))
    have hc : (body (glue [errRow 0 5 true (corner true)] ++ (glue [errRow 1 5 true (corner true)] ++ []))).count ',' =
        (errRow 0 5 true (corner true)).count ',' + (errRow 1 5 true (corner true)).count ',' := by
      simp only [body, glue, List.append_nil, List.count_append, show "\n".toList.count ',' = 0 from rfl, show "  ".toList.count ',' = 0 from rfl]
      omega
    have hl := items_count (body (glue [errRow 0 5 true (corner true)] ++ (glue [errRow 1 5 true (corner true)] ++ [])))
    rw [hc] at hl
    simp only [cornerTokens, List.length_cons, List.length_nil] at h0 h1
    omega
  · refine ⟨_, err_table (fun _ => true) _ (by intro v hv; simp at hv; subst hv; exact ha), ?_⟩
    have := glue_items (texts := [errRow 0 5 true (corner false)]) (.cons (err_row 0 5 true (corner false)) .nil)
    show (items (body (glue [errRow 0 5 true (corner false)] ++ []))).length > 0 * 11
    rw [List.append_nil, this]
    simp [cornerTokens]

end Yac.Report
