import Verif.Calib.CameraFilter
import Verif.AprilGrid.Props

namespace Yac.Calib

open Yac.AprilGrid (Grid Meas Row MadeBy)
open Yac.Solver (CBook insSet mem_insSet)

variable {K V : Type} [Field K] [LinearOrder K]

/-! ## Grids made by valid calls -/

theorem madeBy_meas {rows cols : Nat} {ops : List (AprilGrid.Op K)} {g : Grid K}
    (h : MadeBy rows cols ops g) :
    g.init = true ∧
      (∃ m, AprilGrid.getMeasurements g Meas.empty = .ok m) ∧
      gridMeas g = AprilGrid.Spec.held rows cols (AprilGrid.Spec.run ops) ∧
      (setCorners g : Int) ≤ g.nbDetections ∧ (g.detected = decide (0 < g.nbDetections)) := by
  obtain ⟨hv, ts, size, spacing, hr⟩ := h
  obtain ⟨g', hg', hrel⟩ := AprilGrid.run_rel ts rows cols size spacing ops hv
  rw [hr] at hg'
  cases hg'
  have h3 := (AprilGrid.C03_measurements ts rows cols size spacing ops hv g hr Meas.empty).1
  have h2 := (AprilGrid.C02_counter_exact ts rows cols size spacing ops hv g hr)
  have hmeas : gridMeas g = AprilGrid.Spec.held rows cols (AprilGrid.Spec.run ops) := by
    by_cases hd : g.detected = true
    · rw [← getMeasurements_list g _ hd h3]
      simp only [Meas.empty, List.nil_append]
      generalize AprilGrid.Spec.held rows cols (AprilGrid.Spec.run ops) = l
      induction l with
      | nil => rfl
      | cons a l ih => simp [ih]
    · have hd : g.detected = false := by simpa using hd
      have h0 : ¬ (0 < g.nbDetections) := by
        have := hrel.det; rw [hd] at this; simpa using this.symm
      have hz : AprilGrid.Spec.size rows cols (AprilGrid.Spec.run ops) = 0 := by
        have := h2.1; omega
      have hheld : AprilGrid.Spec.held rows cols (AprilGrid.Spec.run ops) = [] :=
        List.length_eq_zero_iff.mp hz
      rw [hheld, List.eq_nil_iff_forall_not_mem]
      intro x hx
      have hlen := List.length_pos_of_mem hx
      have hh := gridMeas_has g hrel.hinit x hx
      rw [gridMeas, List.mem_filterMap] at hx
      obtain ⟨i, hi, hx⟩ := hx
      obtain ⟨r, k1, k2, rfl⟩ := rowMeas_some g i x hx
      have hil := List.mem_range.mp hi
      rw [hrel.hrows, hrel.hcols] at hil
      have hval : AprilGrid.Spec.Valid rows cols ((i / 4 : Nat) : Int) ((i % 4 : Nat) : Int) := by
        refine ⟨by omega, ?_, by omega, by omega⟩
        have : i / 4 < rows * cols := by omega
        exact_mod_cast this
      have := AprilGrid.C02_not_detected_empty ts rows cols size spacing ops hv g hr hd _ _ hval
      rw [this] at hh
      simp at hh
  refine ⟨hrel.hinit, ⟨_, h3⟩, hmeas, ?_, hrel.det⟩
  rw [setCorners, hmeas, h2.1]
  have : AprilGrid.Spec.size rows cols (AprilGrid.Spec.run ops) =
    (AprilGrid.Spec.held rows cols (AprilGrid.Spec.run ops)).length := rfl
  rw [this]; push_cast; omega

theorem madeBy_ok {rows cols : Nat} {ops : List (AprilGrid.Op K)} {g : Grid K}
    (h : MadeBy rows cols ops g) : GridOK g :=
  fun _ => ⟨(madeBy_meas h).1, (madeBy_meas h).2.2.2.1⟩

theorem madeBy_corners {rows cols : Nat} {ops : List (AprilGrid.Op K)} {g : Grid K}
    (h : MadeBy rows cols ops g) : ∀ m ∈ gridMeas g, hasCorner rows cols m.1.1 m.1.2 = true := by
  rintro ⟨⟨t, c⟩, kp⟩ hm
  rw [(madeBy_meas h).2.2.1] at hm
  have := ((AprilGrid.C03_held_list rows cols (AprilGrid.Spec.run ops)).2 t c kp).mp hm
  simp only [hasCorner, decide_eq_true_eq]
  exact this.1

/-! ## The grid used for the initial pose -/

theorem bestGrid_fold (exts : List (Int × CamP V)) :
    ∀ (grids : List (Int × Grid K)) (b₀ : Int × Grid K),
    let b := grids.foldl (bestGrid exts) b₀
    (b = b₀ ∨ (b ∈ grids ∧ (SMap.find b.1 exts).isSome = true)) ∧
    b₀.2.nbDetections ≤ b.2.nbDetections ∧
    (b ≠ b₀ → b₀.2.nbDetections < b.2.nbDetections) ∧
    ∀ cg ∈ grids, (SMap.find cg.1 exts).isSome = true → cg.2.nbDetections ≤ b.2.nbDetections := by
  intro grids
  induction grids with
  | nil => intro b₀; simp
  | cons cg grids ih =>
    intro b₀
    have h := ih (bestGrid exts b₀ cg)
    simp only [List.foldl_cons]
    obtain ⟨h1, h2, h3, h4⟩ := h
    by_cases hc : cg.2.nbDetections > b₀.2.nbDetections ∧ (SMap.find cg.1 exts).isSome = true
    · have e : bestGrid exts b₀ cg = cg := by rw [bestGrid, if_pos hc]
      rw [e] at h1 h2 h3 h4 ⊢
      refine ⟨?_, by omega, fun _ => by omega, ?_⟩
      · right
        rcases h1 with h1 | ⟨h1, h1'⟩
        · rw [h1]; exact ⟨by simp, hc.2⟩
        · exact ⟨by simp [h1], h1'⟩
      · intro x hx hk
        rcases List.mem_cons.mp hx with rfl | hx
        · exact h2
        · exact h4 x hx hk
    · have e : bestGrid exts b₀ cg = b₀ := by rw [bestGrid, if_neg hc]
      rw [e] at h1 h2 h3 h4 ⊢
      refine ⟨?_, h2, h3, ?_⟩
      · rcases h1 with h1 | ⟨h1, h1'⟩
        · exact Or.inl h1
        · exact Or.inr ⟨by simp [h1], h1'⟩
      · intro x hx hk
        rcases List.mem_cons.mp hx with rfl | hx
        · have : ¬ (x.2.nbDetections > b₀.2.nbDetections) := fun hgt => hc ⟨hgt, hk⟩
          omega
        · exact h4 x hx hk

/-! ## `add_view` succeeds -/

theorem addCamGrid_ok {rows cols : Nat} {params exts : List (Int × CamP V)} {pose : Nat}
    {Q : Finset Par} (hpose : .pose pose ∈ Q)
    (hcam : ∀ i, (SMap.find i params).isSome → .cam i ∈ Q ∧ .ext i ∈ Q)
    (hkeys : ∀ i, (SMap.find i params).isSome = (SMap.find i exts).isSome)
    {S : Finset (Res K)}
    {acc : List (Int × List (Reproj K)) × CBook Par (Res K) × Nat}
    (hb : Solver.CInv Res.blocks acc.2.1 Q S) (hid : ∀ r ∈ S, r.id < acc.2.2)
    {cg : Int × Grid K} {ops : List (AprilGrid.Op K)} (hm : MadeBy rows cols ops cg.2) :
    ∃ acc', addCamGrid rows cols params exts pose acc cg = .ok acc' := by
  unfold addCamGrid
  by_cases h1 : (SMap.find cg.1 params).isNone = true
  · rw [if_pos h1]; exact ⟨_, rfl⟩
  by_cases h2 : cg.2.detected = false
  · rw [if_neg h1, if_pos h2]; exact ⟨_, rfl⟩
  rw [if_neg h1, if_neg h2]
  have hp : (SMap.find cg.1 params).isSome = true := by
    cases hf : SMap.find cg.1 params <;> simp_all
  obtain ⟨m, hmeq⟩ := (madeBy_meas hm).2.1
  rw [hmeq, AprilGrid.ok_bind]
  simp only [getMeasurements_list cg.2 m (by simpa using h2) hmeq]
  by_cases h3 : gridMeas cg.2 = []
  · rw [if_pos h3]; exact ⟨_, rfl⟩
  rw [if_neg h3]
  have h4 : ¬ (SMap.find cg.1 exts).isNone = true := by
    rw [hkeys] at hp
    cases hf : SMap.find cg.1 exts <;> simp_all
  rw [if_neg h4]
  obtain ⟨out, ho⟩ := (addReproj_fold ⟨(hcam _ hp).2, hpose, (hcam _ hp).1⟩ (gridMeas cg.2)
    ((SMap.find cg.1 acc.1).getD []) _ _ S hb hid).2 (madeBy_corners hm)
  rw [ho, AprilGrid.ok_bind]
  exact ⟨_, rfl⟩

theorem Built.run_ok {rows cols : Nat} {params exts : List (Int × CamP V)} {pose : Nat}
    {Q : Finset Par} (hpose : .pose pose ∈ Q)
    (hcam : ∀ i, (SMap.find i params).isSome → .cam i ∈ Q ∧ .ext i ∈ Q)
    (hkeys : ∀ i, (SMap.find i params).isSome = (SMap.find i exts).isSome)
    {S₀ : Finset (Res K)} {n₀ : Nat} {all : List (Int × Grid K)} (hsort : SMap.Sorted all)
    (hok : ∀ cg ∈ all, ∃ ops, MadeBy rows cols ops cg.2) :
    ∀ (grids done : List (Int × Grid K)), all = done ++ grids →
    ∀ (acc : List (Int × List (Reproj K)) × CBook Par (Res K) × Nat),
    Built rows cols params pose Q S₀ n₀ all done acc →
    ∃ acc', grids.foldlM (addCamGrid rows cols params exts pose) acc = .ok acc' := by
  intro grids
  induction grids with
  | nil => intro done _ acc _; exact ⟨acc, rfl⟩
  | cons cg grids ih =>
    intro done hall acc hb
    have hin : cg ∈ all := by rw [hall]; simp
    obtain ⟨ops, hops⟩ := hok cg hin
    obtain ⟨S', hc, hid, _⟩ := hb.book
    obtain ⟨a, h1⟩ := addCamGrid_ok (exts := exts) hpose hcam hkeys hc hid hops
    have hnew : cg.1 ∉ done.map Prod.fst := by
      intro hmem
      have hs' : SMap.Sorted (done ++ cg :: grids) := hall ▸ hsort
      rw [SMap.Sorted, List.pairwise_append] at hs'
      rw [List.mem_map] at hmem
      obtain ⟨x, hx, he⟩ := hmem
      have := hs'.2.2 x hx cg (by simp)
      omega
    obtain ⟨acc', h2⟩ := ih (done ++ [cg]) (by rw [hall]; simp) a
      (hb.step hpose hcam hsort hin (madeBy_ok hops) hnew h1)
    exact ⟨acc', by rw [List.foldlM_cons, h1, AprilGrid.ok_bind, h2]⟩

theorem View.new_ok {s : Cal K V} (h : WF s) {ts : Int} {p : PoseObj V}
    {grids : List (Int × Grid K)} (hp : SMap.find ts s.poses = some p)
    (hsort : SMap.Sorted grids) (hok : ∀ cg ∈ grids, ∃ ops, MadeBy s.rows s.cols ops cg.2) :
    ∃ out, View.new s.rows s.cols s.params s.exts ts grids p.id s.solver s.next = .ok out := by
  obtain ⟨Q, S, hc, hQ, hS⟩ := h.book
  have hidS : ∀ r ∈ S, r.id < s.next := by
    intro r hr
    rcases (hS r).mp hr with ⟨t, v, x, h1, h2, rfl⟩ | hm
    · exact ((h.views t v h1).2.2.of_mem h2).2.1
    · obtain ⟨id, ps, rfl, h2, _⟩ := h.marg r hm; exact h2
  obtain ⟨out, ho⟩ := Built.run_ok (rows := s.rows) (cols := s.cols) (params := s.params)
    (exts := s.exts) (pose := p.id) (Q := Q) ((hQ _).mpr ⟨ts, p, hp, rfl⟩)
    (fun i hi => ⟨(hQ _).mpr hi, (hQ _).mpr (by simp only [Known]; rw [← h.keys]; exact hi)⟩)
    h.keys (S₀ := S) (n₀ := s.next) hsort hok grids [] rfl ([], s.solver, s.next)
    ⟨by simp [SMap.Sorted], le_rfl, by simp [SMap.find], by simp, S, hc, hidS, by simp [SMap.find]⟩
  unfold View.new
  rw [ho, AprilGrid.ok_bind]
  exact ⟨_, rfl⟩

/-- `add_view` succeeds on grids made by valid calls if one of them is detected by a known
camera and the pose can be estimated. -/
theorem addView_ok {env : Env K V} {s : Cal K V} (h : WF s) {grids : List (Int × Grid K)}
    (hsort : SMap.Sorted grids) (hok : ∀ cg ∈ grids, ∃ ops, MadeBy s.rows s.cols ops cg.2)
    (hest : ∀ cg ∈ grids, ∀ p, SMap.find cg.1 s.params = some p →
      (env.estimate cg.2 p.val).isSome = true)
    (hdet : ∃ cg ∈ grids, cg.2.detected = true ∧ (SMap.find cg.1 s.params).isSome = true) :
    ∃ s', addView env s grids = .ok (s', true) := by
  obtain ⟨cg, hcg, hd, hk⟩ := hdet
  unfold addView
  have hstamp : ∃ ts, viewStamp grids = some ts := by
    unfold viewStamp
    cases hf : grids.find? (fun cg => cg.2.detected) with
    | none => exact absurd hd (by simpa using (List.find?_eq_none.mp hf) cg hcg)
    | some x => exact ⟨_, rfl⟩
  obtain ⟨ts, hts⟩ := hstamp
  rw [hts]
  simp only
  have hd0 : ∃ d, ensureData s ts grids = { s with data := d } := by
    unfold ensureData; split_ifs <;> exact ⟨_, rfl⟩
  obtain ⟨d, hdeq⟩ := hd0
  rw [hdeq]
  have hw0 : WF { s with data := d } := { h with }
  have hpose : ∃ s1 p, ensurePose env { s with data := d } ts grids = .ok s1 ∧
      SMap.find ts s1.poses = some p ∧ WF s1 ∧ s1.rows = s.rows ∧ s1.cols = s.cols := by
    unfold ensurePose
    by_cases hp : (SMap.find ts s.poses).isSome = true
    · rw [if_pos hp]
      obtain ⟨p, hp'⟩ := Option.isSome_iff_exists.mp hp
      exact ⟨_, p, rfl, hp', hw0, rfl, rfl⟩
    · rw [if_neg hp, addPose, if_neg hp]
      have hb := bestGrid_fold s.exts grids ((0, AprilGrid.default) : Int × Grid K)
      simp only at hb ⊢
      generalize grids.foldl (bestGrid s.exts) ((0, AprilGrid.default) : Int × Grid K) = best at hb ⊢
      obtain ⟨b1, b2, b3, b4⟩ := hb
      obtain ⟨ops, hops⟩ := hok cg hcg
      have hpos : 0 < cg.2.nbDetections := by
        have := (madeBy_meas hops).2.2.2.2
        rw [hd] at this
        simpa using this.symm
      have hge := b4 cg hcg (by rw [← h.keys]; exact hk)
      have hbest : best ∈ grids ∧ (SMap.find best.1 s.exts).isSome = true := by
        rcases b1 with b1 | b1
        · rw [b1] at hge
          simp only [AprilGrid.default] at hge
          omega
        · exact b1
      obtain ⟨e, he⟩ := Option.isSome_iff_exists.mp hbest.2
      have hpk : (SMap.find best.1 s.params).isSome = true := by rw [h.keys]; exact hbest.2
      obtain ⟨p, hp'⟩ := Option.isSome_iff_exists.mp hpk
      obtain ⟨T, hT⟩ := Option.isSome_iff_exists.mp (hest best hbest.1 p hp')
      simp only [hp', hT, he]
      have hn : SMap.find ts s.poses = none := by
        cases hf : SMap.find ts s.poses <;> simp_all
      exact ⟨_, ⟨s.next, env.compose e.val T⟩, rfl, by simp [SMap.find_set],
        hw0.withPose hn _, rfl, rfl⟩
  obtain ⟨s1, p, e1, e2, e3, e4, e5⟩ := hpose
  rw [e1, AprilGrid.ok_bind]
  simp only [e2]
  have hhas : s1.solver.hasParam (.pose p.id) = true := (e3.hasParam _).mpr ⟨ts, p, e2, rfl⟩
  rw [ensureParam, if_pos hhas, attachView]
  obtain ⟨out, ho⟩ := View.new_ok e3 e2 hsort (by rw [e4, e5]; exact hok)
  rw [ho, AprilGrid.ok_bind]
  exact ⟨_, rfl⟩

end Yac.Calib
