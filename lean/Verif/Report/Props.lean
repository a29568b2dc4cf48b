import Verif.Report.Lemmas
import Verif.Calib.CameraProps
import Verif.Mocap.Ops

/-! # C136: convergence, pose and error tables -/

namespace Yac.Report
open Yac.Text Yac.Fmt Yac.Csv

/-- **C136, repeated times.**  When no time is tracked twice, the snapshot shown in a row is the one taken then. -/
theorem C136_distinct (snaps : List Snap) (h : (snaps.map Snap.ts).Nodup) : ∀ s ∈ snaps, shown snaps s = s := by
  intro s hs
  obtain ⟨h1, h2⟩ := shown_mem hs
  have := List.inj_on_of_nodup_map h
  exact this h1 hs h2

/-- **C136, the convergence.**  One row for every call, in order: index, time, acceptance, information, entropy and the
statistics of the errors (as of the last call at that time); nothing without a history. -/
theorem C136_convergence (stats : List ℚ → Fin 4 → ℚ) (snaps : List Snap) :
    convTable stats (after []) = .ok none ∧
    (snaps ≠ [] → ∃ t, convTable stats (after snaps) = .ok (some t) ∧ TableIs t (snaps.zipIdx.map (fun e =>
      let s := shown snaps e.1
      [IntCell (e.2 : ℤ), IntCell e.1.ts, IntCell (bit s.accepted), FixCell s.info, FixCell s.entropy] ++ statMeans stats s.errs))) := by
  refine ⟨rfl, fun hn => ?_⟩
  have hlen : (after snaps).times.length ≠ 0 := by
    rw [after_times, List.length_map]
    exact fun e => hn (List.length_eq_zero_iff.mp e)
  let tokens : Snap × ℕ → List Str := fun e => [natText e.2, fmtLd e.1.ts, flagText (shown snaps e.1).accepted,
    fmtF (shown snaps e.1).info, fmtF (shown snaps e.1).entropy] ++ statCells stats (shown snaps e.1).errs
  have hz : (after snaps).times.zipIdx = snaps.zipIdx.map (fun e => (e.1.ts, e.2)) := by
    rw [after_times, List.zipIdx_map]
    rfl
  have hm : (after snaps).times.zipIdx.mapM (convRow stats (after snaps)) =
      .ok (snaps.zipIdx.map (fun e => "    ".toList ++ csv (tokens e))) := by
    rw [hz, List.mapM_map]
    refine mapM_ok _ _ _ ?_
    rintro ⟨s, k⟩ he
    have hs : s ∈ snaps := List.mem_of_getElem? (List.mem_zipIdx_iff_getElem?.mp he)
    have hl := lastAt_some hs
    have e1 : atKey (after snaps).accepted s.ts = .ok (shown snaps s).accepted :=
      at_find (by rw [after_find Hist.accepted Snap.accepted rfl (fun _ _ => rfl), hl]; rfl)
    have e2 : atKey (after snaps).info s.ts = .ok (shown snaps s).info :=
      at_find (by rw [after_find Hist.info Snap.info rfl (fun _ _ => rfl), hl]; rfl)
    have e3 : atKey (after snaps).entropy s.ts = .ok (shown snaps s).entropy :=
      at_find (by rw [after_find Hist.entropy Snap.entropy rfl (fun _ _ => rfl), hl]; rfl)
    have e4 : atKey (after snaps).errs s.ts = .ok (shown snaps s).errs :=
      at_find (by rw [after_find Hist.errs Snap.errs rfl (fun _ _ => rfl), hl]; rfl)
    simp only [Function.comp, convRow, e1, e2, e3, e4, okb]
    rfl
  refine ⟨⟨(after snaps).times.length, 9, body (glue (snaps.zipIdx.map (fun e => "    ".toList ++ csv (tokens e))))⟩, ?_, ?_⟩
  · unfold convTable
    rw [if_neg hlen, hm]
    rfl
  · refine table_is _ _ tokens _ _ _ ?_ ?_ ?_ ?_
    · rw [after_times]; simp
    · intro e _
      unfold statMeans
      by_cases h : (shown snaps e.1).errs = []
      · simp [h]
      · simp [h]
    · intro e _
      refine csv_row (by simp [tokens]) ?_
      intro t ht
      simp only [tokens, List.cons_append, List.nil_append, List.mem_cons] at ht
      rcases ht with rfl | rfl | rfl | rfl | rfl | ht
      · exact token_nat _
      · exact Save.token_fmtLd _
      · exact token_flag _
      · exact token_fmtF _
      · exact token_fmtF _
      · unfold statCells at ht
        split_ifs at ht
        · obtain ⟨i, rfl⟩ := (List.mem_ofFn).mp ht
          exact token_fmtF _
        · rw [List.eq_of_mem_replicate ht]
          exact ⟨by decide, by decide⟩
    · intro e _
      refine .cons (says_nat _).2 (.cons (says_int _).2 (.cons (int_flag _) (.cons (says_fix _).2 (.cons (says_fix _).2 ?_))))
      unfold statMeans statCells
      by_cases h : (shown snaps e.1).errs = []
      · rw [if_pos h, if_neg (by simp [h])]
        exact .cons rfl (.cons rfl (.cons rfl (.cons rfl .nil)))
      · rw [if_neg h, if_pos (by simpa using h)]
        simp only [List.ofFn_eq_map]
        exact forall_map _ _ _ (fun i _ => (says_fix _).2)

/-- **C136, the extrinsics.**  A table for every camera but camera 0, with one row for every call: time, acceptance, pose. -/
theorem C136_extrinsics (idxs : List ℤ) (snaps : List Snap) (h : SameCameras idxs snaps) :
    ∃ ts, extTables (after snaps) idxs = .ok ts ∧ ts.map Prod.fst = idxs.filter (fun i => decide (i ≠ 0)) ∧
    ∀ i t, (i, t) ∈ ts → ∃ pose : Snap → Fin 7 → ℚ, (∀ s ∈ snaps, (i, pose s) ∈ (shown snaps s).exts) ∧
      TableIs t (snaps.map (fun s => [IntCell s.ts, IntCell (bit (shown snaps s).accepted)] ++ poseMeans (pose s))) := by
  obtain ⟨hd, hc⟩ := h
  -- the pose of camera i in the snapshot shown
  let pose : ℤ → Snap → Fin 7 → ℚ := fun i s => (SMap.find i (shown snaps s).exts).getD 0
  have hpose : ∀ i ∈ idxs, ∀ s ∈ snaps, (i, pose i s) ∈ (shown snaps s).exts := by
    intro i hi s hs
    have hk : i ∈ (shown snaps s).exts.map Prod.fst := by rw [(hc _ (shown_mem hs).1).2]; exact hi
    obtain ⟨v, hv⟩ := Option.isSome_iff_exists.mp (SMap.find_isSome.mpr hk)
    have := SMap.mem_of_find hv
    simp only [pose, hv]
    exact this
  let tokens : ℤ → Snap → List Str := fun i s => fmtLd s.ts :: flagText (shown snaps s).accepted :: List.ofFn (fun j => fmtF (pose i s j))
  let tab : ℤ → Table := fun i => ⟨(after snaps).times.length, 9, body (glue (snaps.map (fun s => "    ".toList ++ csv (tokens i s))))⟩
  have ht : ∀ i ∈ idxs, extTable (after snaps) i = .ok (tab i) := by
    intro i hi
    have hm : (after snaps).times.mapM (extRow (after snaps) i) = .ok (snaps.map (fun s => "    ".toList ++ csv (tokens i s))) := by
      rw [after_times, List.mapM_map]
      refine mapM_ok _ _ _ ?_
      intro s hs
      have hl := lastAt_some hs
      have e1 : atKey (after snaps).accepted s.ts = .ok (shown snaps s).accepted :=
        at_find (by rw [after_find Hist.accepted Snap.accepted rfl (fun _ _ => rfl), hl]; rfl)
      obtain ⟨m, e2, e3⟩ := after_nested Hist.exts Snap.exts rfl (fun _ _ => rfl) hd snaps (fun s hs => (hc s hs).2) hl (hpose i hi s hs)
      simp only [Function.comp, extRow, at_find e2, at_find e3, e1, okb]
      rfl
    unfold extTable
    rw [hm]
    rfl
  refine ⟨(idxs.filter (fun i => decide (i ≠ 0))).map (fun i => (i, tab i)), ?_, ?_, ?_⟩
  · refine mapM_ok _ _ _ ?_
    intro i hi
    rw [ht i (List.mem_of_mem_filter hi)]
    rfl
  · rw [List.map_map]
    simp [Function.comp_def]
  · intro i t hit
    obtain ⟨j, hj, e⟩ := List.mem_map.mp hit
    cases e
    have hj' := List.mem_of_mem_filter hj
    refine ⟨pose i, hpose i hj', ?_⟩
    refine table_is _ _ (tokens i) _ _ _ ?_ ?_ ?_ ?_
    · rw [after_times]; simp
    · intro s _
      simp [poseMeans]
    · intro s _
      refine csv_row (by simp [tokens]) ?_
      intro t ht
      simp only [tokens, List.mem_cons] at ht
      rcases ht with rfl | rfl | ht
      · exact Save.token_fmtLd _
      · exact token_flag _
      · obtain ⟨j, rfl⟩ := (List.mem_ofFn).mp ht
        exact token_fmtF _
    · intro s _
      refine .cons (says_int _).2 (.cons (int_flag _) ?_)
      unfold poseMeans
      simp only [List.ofFn_eq_map]
      exact forall_map _ _ _ (fun i _ => (says_fix _).2)

end Yac.Report
