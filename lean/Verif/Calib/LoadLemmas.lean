import Verif.Calib.LoadModel
import Verif.Calib.BatchProps
import Verif.Text.Props

/-!
# Lemmas about `load_data`
-/

namespace Yac.Calib

open Yac.AprilGrid (Grid)
open Yac.Data (File isTs tsOf loadFile)
open Yac.Geom Yac.Text

variable {K V : Type} [Field K] [LinearOrder K]

/-- The file of a camera for a timestamp: the last one, in the order of the names, whose name starts
with the timestamp. -/
def record (d : DataSet K) (cam ts : Int) : Option (File K) :=
  (((d.grids cam).filter (fun nf => isTs nf.1 && decide (tsOf nf.1 = ts))).getLast?).map Prod.snd

/-! ## The table of files -/

theorem noteFile_find (cam : Int) (m : List (Int × List (Int × File K))) (nf : List Char × File K)
    (ts c : Int) :
    SMap.find c ((SMap.find ts (noteFile cam m nf)).getD []) =
      if (isTs nf.1 && decide (tsOf nf.1 = ts)) = true ∧ c = cam then some nf.2
      else SMap.find c ((SMap.find ts m).getD []) := by
  unfold noteFile
  by_cases h1 : isTs nf.1 = true
  · rw [if_pos h1, SMap.find_set]
    by_cases h2 : ts = tsOf nf.1
    · rw [if_pos h2, Option.getD_some, SMap.find_set, h1, h2]
      simp
    · rw [if_neg h2, if_neg]
      rintro ⟨h3, -⟩
      simp only [h1, Bool.true_and, decide_eq_true_eq] at h3
      exact h2 h3.symm
  · rw [if_neg h1, if_neg]
    rintro ⟨h3, -⟩
    simp only [Bool.and_eq_true] at h3
    exact h1 h3.1

/-- A later entry wins. -/
def later {α : Type} (a b : Option α) : Option α := match a with
  | some x => some x
  | none => b

theorem noteFile_fold (cam : Int) (ts c : Int) : ∀ (l : List (List Char × File K))
    (m : List (Int × List (Int × File K))),
    SMap.find c ((SMap.find ts (l.foldl (noteFile cam) m)).getD []) =
      later (if c = cam then
        ((l.filter (fun nf => isTs nf.1 && decide (tsOf nf.1 = ts))).getLast?).map Prod.snd else none)
        (SMap.find c ((SMap.find ts m).getD []))
  | [], m => by simp [later]
  | nf :: l, m => by
    rw [List.foldl_cons, noteFile_fold cam ts c l, noteFile_find, List.filter_cons]
    by_cases hc : c = cam
    · simp only [hc, and_true, if_true]
      by_cases h : (isTs nf.1 && decide (tsOf nf.1 = ts)) = true
      · rw [if_pos h, if_pos h, List.getLast?_cons]
        cases ((l.filter (fun nf => isTs nf.1 && decide (tsOf nf.1 = ts))).getLast?) with
        | none => rfl
        | some x => rfl
      · rw [if_neg h, if_neg h]
    · simp only [hc, and_false, if_false]

theorem gridData_fold (d : DataSet K) (ts c : Int) : ∀ (cams : List Int)
    (m : List (Int × List (Int × File K))),
    SMap.find c ((SMap.find ts (cams.foldl (fun m cam => (d.grids cam).foldl (noteFile cam) m) m)).getD []) =
      later (if c ∈ cams then record d c ts else none) (SMap.find c ((SMap.find ts m).getD []))
  | [], m => by simp [later]
  | cam :: cams, m => by
    rw [List.foldl_cons, gridData_fold d ts c cams, noteFile_fold]
    by_cases h1 : c = cam
    · subst h1
      rw [if_pos rfl, if_pos (List.mem_cons_self ..)]
      by_cases h2 : c ∈ cams
      · rw [if_pos h2]
        unfold record
        cases ((List.filter (fun nf => isTs nf.1 && decide (tsOf nf.1 = ts)) (d.grids c)).getLast?) <;> rfl
      · rw [if_neg h2]; rfl
    · rw [if_neg h1]
      have : c ∈ cam :: cams ↔ c ∈ cams := by simp [h1]
      by_cases h2 : c ∈ cams
      · rw [if_pos h2, if_pos (this.2 h2)]; rfl
      · rw [if_neg h2, if_neg (fun h => h2 (this.1 h))]; rfl

theorem gridData_find (d : DataSet K) (cams : List Int) (ts c : Int) :
    SMap.find c ((SMap.find ts (gridData d cams)).getD []) =
      if c ∈ cams then record d c ts else none := by
  unfold gridData
  rw [gridData_fold]
  show later _ none = _
  generalize (if c ∈ cams then record d c ts else none) = o
  cases o <;> rfl

/-- A table of files: ascending, without empty entries. -/
def TableOk (m : List (Int × List (Int × File K))) : Prop :=
  SMap.Sorted m ∧ ∀ e ∈ m, e.2 ≠ [] ∧ SMap.Sorted e.2

theorem set_ne_nil {κ ν : Type} [LinearOrder κ] (k : κ) (v : ν) (m : List (κ × ν)) : SMap.set k v m ≠ [] := by
  cases m with
  | nil => simp [SMap.set]
  | cons p m => obtain ⟨q, w⟩ := p; simp only [SMap.set]; split_ifs <;> simp

theorem TableOk.note {m : List (Int × List (Int × File K))} (h : TableOk m) (cam : Int)
    (nf : List Char × File K) : TableOk (noteFile cam m nf) := by
  unfold noteFile
  split_ifs with h1
  · refine ⟨SMap.set_sorted _ _ _ h.1, fun e he => ?_⟩
    rcases SMap.mem_set he with rfl | he
    · refine ⟨set_ne_nil _ _ _, SMap.set_sorted _ _ _ ?_⟩
      cases hf : SMap.find (tsOf nf.1) m with
      | none => simp [SMap.Sorted]
      | some x => exact (h.2 _ (SMap.mem_of_find hf)).2
    · exact h.2 e he
  · exact h

theorem gridData_ok (d : DataSet K) (cams : List Int) : TableOk (gridData d cams) := by
  have inner : ∀ (cam : Int) (l : List (List Char × File K)) (m : List (Int × List (Int × File K))),
      TableOk m → TableOk (l.foldl (noteFile cam) m) := by
    intro cam l
    induction l with
    | nil => intro m h; exact h
    | cons x l ih => intro m h; exact ih _ (h.note cam x)
  have outer : ∀ (cams : List Int) (m : List (Int × List (Int × File K))), TableOk m →
      TableOk (cams.foldl (fun m cam => (d.grids cam).foldl (noteFile cam) m) m) := by
    intro cams
    induction cams with
    | nil => intro m h; exact h
    | cons c cams ih => intro m h; exact ih _ (inner c _ m h)
  exact outer cams [] ⟨by simp [SMap.Sorted], by simp⟩

/-! ## The grid in a file -/

/-- Number of set rows. -/
def flagged (data : List (AprilGrid.Row K)) : Nat := data.countP (fun r => decide (r.flag > 0))

theorem gridMeas_le (g : Grid K) : setCorners g ≤ flagged g.data := by
  have h : ∀ n, ((List.range n).filterMap (rowMeas g)).length ≤ flagged (g.data.take n) := by
    intro n
    induction n with
    | zero => simp
    | succ n ih =>
      rw [List.range_succ, List.filterMap_append, List.length_append, List.take_add_one]
      unfold flagged at ih ⊢
      rw [List.countP_append]
      refine Nat.add_le_add ih ?_
      cases hr : g.data[n]? with
      | none => simp [rowMeas, hr]
      | some r =>
        by_cases hf : r.flag > 0
        · simp [rowMeas, hr, hf]
        · simp [rowMeas, hr, hf]
  refine le_trans (h _) ?_
  unfold flagged
  exact (List.take_sublist _ _).countP_le

theorem flagged_set (data : List (AprilGrid.Row K)) (r : AprilGrid.Row K) :
    ∀ i, flagged (data.set i r) ≤ flagged data + 1 := by
  unfold flagged
  induction data with
  | nil => simp
  | cons x l ih =>
    intro i
    cases i with
    | zero =>
      rw [List.set_cons_zero, List.countP_cons, List.countP_cons]
      split_ifs <;> omega
    | succ i =>
      rw [List.set_cons_succ, List.countP_cons, List.countP_cons]
      have := ih i
      omega

theorem flagged_zero (n : Nat) : flagged (List.replicate n (AprilGrid.zeroRow : AprilGrid.Row K)) = 0 := by
  unfold flagged
  rw [List.countP_replicate, if_neg (by simp [AprilGrid.zeroRow])]

theorem writeRow_flagged {data out : List (AprilGrid.Row K)} {i : Int} {r : AprilGrid.Row K}
    (h : AprilGrid.writeRow data i r = .ok out) : flagged out ≤ flagged data + 1 := by
  unfold AprilGrid.writeRow at h
  split_ifs at h
  simp only [Except.ok.injEq] at h
  rw [← h]
  exact flagged_set _ _ _

theorem fresh_flagged (data : List (AprilGrid.Row K)) (n : Nat) :
    flagged (if data.isEmpty then List.replicate n AprilGrid.zeroRow else data) ≤ flagged data := by
  split_ifs
  · rw [flagged_zero]; exact Nat.zero_le _
  · exact le_refl _

theorem loadLine_flagged {g g' : Grid K} {l : AprilGrid.Line K} (h : AprilGrid.loadLine g l = .ok g')
    (hg : (flagged g.data : Int) ≤ g.nbDetections) : (flagged g'.data : Int) ≤ g'.nbDetections := by
  unfold AprilGrid.loadLine at h
  obtain ⟨data, e, h⟩ := bind_ok h
  simp only [AprilGrid.pure_eq_ok, Except.ok.injEq] at h
  rw [← h]
  have h1 := writeRow_flagged e
  have h2 := fresh_flagged g.data (l.rows * l.cols * 4)
  simp only
  omega

theorem loadLine2_flagged {g g' : Grid K} {l : Data.V2Line K} (h : Data.loadLine2 g l = .ok g')
    (hg : (flagged g.data : Int) ≤ g.nbDetections) : (flagged g'.data : Int) ≤ g'.nbDetections := by
  unfold Data.loadLine2 at h
  obtain ⟨data, e, h⟩ := bind_ok h
  simp only [Except.ok.injEq] at h
  rw [← h]
  have h1 := writeRow_flagged e
  have h2 := fresh_flagged g.data (g.tagRows * g.tagCols * 4)
  simp only
  omega

theorem fold_keeps {α β : Type} {P : β → Prop} {f : β → α → Except Fault β}
    (hf : ∀ b a b', f b a = .ok b' → P b → P b') : ∀ (l : List α) (b out : β), P b →
    l.foldlM f b = .ok out → P out
  | [], b, out, hb, h => by
    rw [List.foldlM_nil, AprilGrid.pure_eq_ok, Except.ok.injEq] at h
    rw [← h]; exact hb
  | a :: l, b, out, hb, h => by
    rw [List.foldlM_cons] at h
    obtain ⟨b', e, h5⟩ := bind_ok h
    exact fold_keeps hf l b' out (hf b a b' e hb) h5

/-- A grid read from a file is initialised and counts at least its corners. -/
theorem fileGrid_ok {v2 : Bool} {f : File K} {g : Grid K} (h : fileGrid v2 f = .ok g) :
    g.init = true ∧ (setCorners g : Int) ≤ g.nbDetections := by
  unfold fileGrid at h
  obtain ⟨g0, e, h⟩ := bind_ok h
  simp only [Except.ok.injEq] at h
  have hz : flagged ((AprilGrid.default : Grid K).data) = 0 := rfl
  have hn : (AprilGrid.default : Grid K).nbDetections = 0 := rfl
  have key : (flagged g0.data : Int) ≤ g0.nbDetections := by
    unfold loadFile at e
    cases v2 with
    | true =>
      rw [if_pos rfl] at e
      cases f with
      | csv ls => simp [Data.loadv2] at e
      | v2 x =>
        unfold Data.loadv2 at e
        obtain ⟨g1, e1, e2⟩ := bind_ok e
        split_ifs at e2
        simp only [Except.ok.injEq] at e2
        rw [← e2]
        exact fold_keeps (P := fun g : Grid K => (flagged g.data : Int) ≤ g.nbDetections)
          (fun _ _ _ h1 h2 => loadLine2_flagged h1 h2) _ _ _ (by
            simp only [Data.withTarget]; rw [hz, hn]; simp) e1
    | false =>
      rw [if_neg (by simp)] at e
      cases f with
      | csv ls =>
        unfold AprilGrid.load at e
        obtain ⟨g1, e1, e2⟩ := bind_ok e
        simp only [AprilGrid.pure_eq_ok, Except.ok.injEq] at e2
        rw [← e2]
        exact fold_keeps (P := fun g : Grid K => (flagged g.data : Int) ≤ g.nbDetections)
          (fun _ _ _ h1 h2 => loadLine_flagged h1 h2) ls (AprilGrid.clear AprilGrid.default) g1 (by
            show ((flagged ([] : List (AprilGrid.Row K)) : Nat) : Int) ≤ 0
            simp [flagged]) e1
      | v2 x =>
        simp only [Except.ok.injEq] at e
        rw [← e]
        show ((flagged ([] : List (AprilGrid.Row K)) : Nat) : Int) ≤ 0
        simp [flagged]
  refine ⟨by rw [← h], ?_⟩
  have := gridMeas_le g
  have hd : g.data = g0.data ∧ g.nbDetections = g0.nbDetections := by rw [← h]; exact ⟨rfl, rfl⟩
  rw [hd.1] at this
  rw [hd.2]
  omega

/-! ## One frame -/

/-- The grids are those in the files. -/
def ReadFrom (v2 : Bool) (cfs : List (Int × File K)) (gs : List (Int × Grid K)) : Prop :=
  List.Forall₂ (fun cf cg => cg.1 = cf.1 ∧ fileGrid v2 cf.2 = .ok cg.2) cfs gs

theorem ReadFrom.find {v2 : Bool} {cfs : List (Int × File K)} {gs : List (Int × Grid K)}
    (h : ReadFrom v2 cfs gs) (c : Int) :
    (∀ f, SMap.find c cfs = some f → ∃ g, fileGrid v2 f = .ok g ∧ SMap.find c gs = some g) ∧
    (SMap.find c cfs = none → SMap.find c gs = none) := by
  induction h with
  | nil => simp [SMap.find]
  | @cons a b l l' hab _ ih =>
    obtain ⟨a1, a2⟩ := a
    obtain ⟨b1, b2⟩ := b
    obtain ⟨rfl, h2⟩ := hab
    simp only [SMap.find]
    by_cases hc : b1 = c
    · simp only [hc, if_true]
      exact ⟨fun f hf => ⟨b2, by simp only [Option.some.injEq] at hf; rw [← hf]; exact h2, rfl⟩, by simp⟩
    · simp only [hc, if_false]
      exact ih

theorem ReadFrom.mem {v2 : Bool} {cfs : List (Int × File K)} {gs : List (Int × Grid K)}
    (h : ReadFrom v2 cfs gs) {cg : Int × Grid K} (hm : cg ∈ gs) :
    ∃ f, (cg.1, f) ∈ cfs ∧ fileGrid v2 f = .ok cg.2 := by
  induction h with
  | nil => simp at hm
  | @cons a b l l' hab _ ih =>
    rcases List.mem_cons.1 hm with rfl | hm
    · exact ⟨a.2, by rw [hab.1]; simp, hab.2⟩
    · obtain ⟨f, h1, h2⟩ := ih hm
      exact ⟨f, by simp [h1], h2⟩

theorem ReadFrom.keys {v2 : Bool} {cfs : List (Int × File K)} {gs : List (Int × Grid K)}
    (h : ReadFrom v2 cfs gs) : gs.map Prod.fst = cfs.map Prod.fst := by
  induction h with
  | nil => rfl
  | cons hab _ ih => simp only [List.map_cons, ih, hab.1]

theorem ReadFrom.sorted {v2 : Bool} {cfs : List (Int × File K)} {gs : List (Int × Grid K)}
    (h : ReadFrom v2 cfs gs) (hs : SMap.Sorted cfs) : SMap.Sorted gs := by
  have e := h.keys
  unfold SMap.Sorted at hs ⊢
  rw [← List.pairwise_map (f := Prod.fst) (R := (· < ·))] at hs ⊢
  rw [e]; exact hs

/-- The calibrator after the files of a frame have been read. -/
structure Read (s s' : Cal K V) (ts : Int) (gs : List (Int × Grid K)) : Prop where
  eq : s' = { s with timestamps := s'.timestamps, data := s'.data }
  data : ∀ t, SMap.find t s'.data = if t = ts ∧ gs ≠ [] then some gs else SMap.find t s.data
  stamps : ∀ t, t ∈ s'.timestamps ↔ t ∈ s.timestamps ∨ (t = ts ∧ gs ≠ [])
  sorted : s.timestamps.Pairwise (· < ·) → s'.timestamps.Pairwise (· < ·)

theorem loadCam_fold (v2 : Bool) (ts : Int) (s : Cal K V) (hn : SMap.find ts s.data = none) :
    ∀ (cfs done : List (Int × File K)) (a out : Cal K V × List (Int × Grid K)),
    SMap.Sorted (done ++ cfs) → ReadFrom v2 done a.2 → Read s a.1 ts a.2 →
    cfs.foldlM (loadCam v2 ts) a = .ok out → ReadFrom v2 (done ++ cfs) out.2 ∧ Read s out.1 ts out.2
  | [], done, a, out, _, h1, h2, h => by
    rw [List.foldlM_nil, AprilGrid.pure_eq_ok, Except.ok.injEq] at h
    subst h
    rw [List.append_nil]
    exact ⟨h1, h2⟩
  | cf :: cfs, done, a, out, hs, h1, h2, h => by
    rw [List.foldlM_cons] at h
    obtain ⟨a', e1, h⟩ := bind_ok h
    unfold loadCam at e1
    obtain ⟨g, e2, e1⟩ := bind_ok e1
    simp only [Except.ok.injEq] at e1
    have hlt : ∀ x ∈ a.2, x.1 < cf.1 := by
      intro x hx
      have hk : x.1 ∈ done.map Prod.fst := by rw [← h1.keys]; exact List.mem_map.2 ⟨x, hx, rfl⟩
      obtain ⟨y, hy, e⟩ := List.mem_map.1 hk
      unfold SMap.Sorted at hs
      rw [List.pairwise_append] at hs
      rw [← e]
      exact hs.2.2 y hy cf (by simp)
    have hset : SMap.set cf.1 g a.2 = a.2 ++ [(cf.1, g)] := set_last _ _ _ hlt
    have r1 : ReadFrom v2 (done ++ [cf]) a'.2 := by
      rw [← e1]
      simp only [hset]
      exact List.rel_append h1 (List.Forall₂.cons ⟨rfl, e2⟩ .nil)
    have hd : SMap.set cf.1 g ((SMap.find ts a.1.data).getD []) = a.2 ++ [(cf.1, g)] := by
      rw [h2.data ts]
      by_cases hne : a.2 = []
      · rw [if_neg (fun h => h.2 hne), hn, hne]; rfl
      · rw [if_pos ⟨rfl, hne⟩]; exact hset
    have r2 : Read s a'.1 ts a'.2 := by
      rw [← e1]
      refine ⟨?_, ?_, ?_, ?_⟩
      · simp only
        conv_lhs => rw [h2.eq]
      · intro t
        simp only [hd, hset, SMap.find_set]
        by_cases ht : t = ts
        · simp [ht]
        · rw [if_neg ht, if_neg (fun h => ht h.1), h2.data t, if_neg (fun h => ht h.1)]
      · intro t
        simp only [setInsert_mem, h2.stamps t, hset]
        by_cases ht : t = ts <;> simp [ht]
      · intro hp
        exact setInsert_sorted (h2.sorted hp)
    obtain ⟨q1, q2⟩ := loadCam_fold v2 ts s hn cfs (done ++ [cf]) a' out
      (by rw [List.append_assoc, List.singleton_append]; exact hs) r1 r2 h
    rw [List.append_assoc, List.singleton_append] at q1
    exact ⟨q1, q2⟩

/-- What the files of a data set must contain for the grids to be usable: a grid with corners is
initialised, counts them, and carries the timestamp of the file name. -/
def GoodFile (v2 : Bool) (ts : Int) (f : File K) : Prop :=
  ∀ g, fileGrid v2 f = .ok g → GridOK g ∧ (g.detected = true → g.timestamp = ts)

/-- A frame as it should be in the calibrator: the grids, and the view if something was detected. -/
structure FrameIn (v2 : Bool) (out : Cal K V) (ts : Int) (cfs : List (Int × File K)) : Prop where
  grids : ∃ gs, ReadFrom v2 cfs gs ∧ SMap.find ts out.data = some gs ∧
    ((∀ cg ∈ gs, cg.2.detected = false) → SMap.find ts out.views = none) ∧
    ((∃ cg ∈ gs, cg.2.detected = true) → ∃ v, SMap.find ts out.views = some v ∧ v.grids = gs ∧
      ∀ cg ∈ gs, v.camKeys cg.1 =
        if (SMap.find cg.1 out.params).isSome ∧ cg.2.detected = true then gridMeas cg.2 else [])

theorem loadFrame_spec {env : Env K V} {v2 : Bool} {s out : Cal K V} {e : Int × List (Int × File K)}
    (hw : WF s) (hp : PoseIffView s) (hd : SMap.find e.1 s.data = none)
    (hv : SMap.find e.1 s.views = none) (hne : e.2 ≠ []) (hs : SMap.Sorted e.2)
    (hf : ∀ cf ∈ e.2, GoodFile v2 e.1 cf.2) (h : loadFrame env v2 s e = .ok out) :
    WF out ∧ PoseIffView out ∧ out.params = s.params ∧ out.exts = s.exts ∧ out.marg = s.marg ∧
    FrameIn v2 out e.1 e.2 ∧
    (∀ t, t ≠ e.1 → SMap.find t out.data = SMap.find t s.data ∧
      SMap.find t out.views = SMap.find t s.views ∧ SMap.find t out.poses = SMap.find t s.poses) ∧
    (∀ t, t ∈ out.timestamps ↔ t ∈ s.timestamps ∨ t = e.1) ∧
    (s.timestamps.Pairwise (· < ·) → out.timestamps.Pairwise (· < ·)) := by
  unfold loadFrame at h
  obtain ⟨⟨a, gs⟩, h1, h⟩ := bind_ok h
  obtain ⟨⟨o, b⟩, h2, h⟩ := bind_ok h
  simp only [Except.ok.injEq] at h h2
  subst h
  obtain ⟨q1, q2⟩ := loadCam_fold v2 e.1 s hd e.2 [] (s, []) (a, gs) hs .nil
    ⟨rfl, by simp, by simp, fun h => h⟩ h1
  rw [List.nil_append] at q1
  simp only at q1 q2
  have hgne : gs ≠ [] := by
    intro h0
    have := q1.keys
    rw [h0] at this
    simp only [List.map_nil] at this
    exact hne (List.map_eq_nil_iff.1 this.symm)
  have hwa : WF a := by rw [q2.eq]; exact { hw with }
  have hva : a.views = s.views := by rw [q2.eq]
  have hpa : a.poses = s.poses := by rw [q2.eq]
  have hpar : a.params = s.params := by rw [q2.eq]
  have hext : a.exts = s.exts := by rw [q2.eq]
  have hmar : a.marg = s.marg := by rw [q2.eq]
  have hgood : ∀ cg ∈ gs, GridOK cg.2 ∧ (cg.2.detected = true → cg.2.timestamp = e.1) := by
    intro cg hcg
    obtain ⟨f, m1, m2⟩ := q1.mem hcg
    exact hf _ m1 cg.2 m2
  have hstamp : ∀ ts, viewStamp gs = some ts → ts = e.1 ∧ ∃ cg ∈ gs, cg.2.detected = true := by
    intro ts hts
    unfold viewStamp at hts
    rw [Option.map_eq_some_iff] at hts
    obtain ⟨cg, c1, c2⟩ := hts
    have hm := List.mem_of_find?_eq_some c1
    have hdet : cg.2.detected = true := by simpa using List.find?_some c1
    exact ⟨by rw [← c2]; exact (hgood cg hm).2 hdet, cg, hm, hdet⟩
  rcases addView_spec hwa (q1.sorted hs) (fun cg hcg => (hgood cg hcg).1)
      (fun ts hts => by rw [(hstamp ts hts).1, hva]; exact hv) h2 with
    ⟨e1, rfl, rfl⟩ | ⟨ts, v, p, e1, rfl, w', ha, hg, hvp, _, hm⟩
  · have hnone : ∀ cg ∈ gs, cg.2.detected = false := by
      intro cg hcg
      unfold viewStamp at e1
      rw [Option.map_eq_none_iff] at e1
      simpa using List.find?_eq_none.1 e1 cg hcg
    refine ⟨hwa, ?_, hpar, hext, hmar, ⟨gs, q1, ?_, ?_, ?_⟩, ?_, ?_, q2.sorted⟩
    · intro t; rw [hpa, hva]; exact hp t
    · rw [q2.data, if_pos ⟨rfl, hgne⟩]
    · intro _; rw [hva]; exact hv
    · rintro ⟨cg, c1, c2⟩
      rw [hnone cg c1] at c2; simp at c2
    · intro t ht
      exact ⟨by rw [q2.data, if_neg (fun h => ht h.1)], by rw [hva], by rw [hpa]⟩
    · intro t
      rw [q2.stamps]
      simp [hgne]
  · obtain ⟨rfl, hdet⟩ := hstamp ts e1
    have hod : o.data = a.data := by
      rcases ha.data with h | ⟨h, _⟩
      · exact h
      · rw [q2.data, if_pos ⟨rfl, hgne⟩] at h; simp at h
    refine ⟨w', ?_, ha.params.trans hpar, ha.exts.trans hext, ha.marg.trans hmar,
      ⟨gs, q1, ?_, ?_, ?_⟩, ?_, ?_, fun h => by rw [ha.timestamps]; exact q2.sorted h⟩
    · intro t
      rw [ha.views, SMap.find_set]
      by_cases ht : t = e.1
      · rw [if_pos ht, ht, ha.pose]; rfl
      · rw [if_neg ht, ha.poses]
        split_ifs
        · rw [hpa, hva]; exact hp t
        · rw [SMap.find_set, if_neg ht, hpa, hva]; exact hp t
    · rw [hod, q2.data, if_pos ⟨rfl, hgne⟩]
    · intro hno
      obtain ⟨cg, c1, c2⟩ := hdet
      rw [hno cg c1] at c2; simp at c2
    · intro _
      refine ⟨v, by rw [ha.views, SMap.find_set, if_pos rfl], hg, fun cg hcg => ?_⟩
      rw [ha.params]
      exact hm cg hcg
    · intro t ht
      refine ⟨by rw [hod, q2.data, if_neg (fun h => ht h.1)],
        by rw [ha.views, SMap.find_set, if_neg ht, hva], ?_⟩
      rw [ha.poses]
      split_ifs
      · rw [hpa]
      · rw [SMap.find_set, if_neg ht, hpa]
    · intro t
      rw [ha.timestamps, q2.stamps]
      simp [hgne]

theorem FrameIn.congr {v2 : Bool} {s s' : Cal K V} {ts : Int} {cfs : List (Int × File K)}
    (h : FrameIn v2 s ts cfs) (hd : SMap.find ts s'.data = SMap.find ts s.data)
    (hv : SMap.find ts s'.views = SMap.find ts s.views) (hp : s'.params = s.params) :
    FrameIn v2 s' ts cfs := by
  obtain ⟨gs, h1, h2, h3, h4⟩ := h.grids
  exact ⟨gs, h1, by rw [hd]; exact h2, by rw [hv]; exact h3, by rw [hv, hp]; exact h4⟩

theorem loadFrames_spec {env : Env K V} {v2 : Bool} : ∀ (l : List (Int × List (Int × File K)))
    (s out : Cal K V), WF s → PoseIffView s → TableOk l →
    (∀ e ∈ l, SMap.find e.1 s.data = none ∧ SMap.find e.1 s.views = none) →
    (∀ e ∈ l, ∀ cf ∈ e.2, GoodFile v2 e.1 cf.2) →
    l.foldlM (loadFrame env v2) s = .ok out →
    WF out ∧ PoseIffView out ∧ out.params = s.params ∧ out.exts = s.exts ∧ out.marg = s.marg ∧
    (∀ e ∈ l, FrameIn v2 out e.1 e.2) ∧
    (∀ t, t ∉ l.map Prod.fst → SMap.find t out.data = SMap.find t s.data ∧
      SMap.find t out.views = SMap.find t s.views ∧ SMap.find t out.poses = SMap.find t s.poses) ∧
    (∀ t, t ∈ out.timestamps ↔ t ∈ s.timestamps ∨ t ∈ l.map Prod.fst) ∧
    (s.timestamps.Pairwise (· < ·) → out.timestamps.Pairwise (· < ·))
  | [], s, out, hw, hp, _, _, _, h => by
    rw [List.foldlM_nil, AprilGrid.pure_eq_ok, Except.ok.injEq] at h
    subst h
    exact ⟨hw, hp, rfl, rfl, rfl, by simp, fun _ _ => ⟨rfl, rfl, rfl⟩, by simp, fun h => h⟩
  | e :: l, s, out, hw, hp, ht, hn, hf, h => by
    rw [List.foldlM_cons] at h
    obtain ⟨s1, h1, h⟩ := bind_ok h
    obtain ⟨a1, a2, a3, a4, a5, a6, a7, a8, a9⟩ := loadFrame_spec hw hp (hn e (by simp)).1
      (hn e (by simp)).2 (ht.2 e (by simp)).1 (ht.2 e (by simp)).2 (hf e (by simp)) h1
    have hsrt := List.pairwise_cons.1 ht.1
    have hdiff : ∀ x ∈ l, x.1 ≠ e.1 := fun x hx => ne_of_gt (hsrt.1 x hx)
    obtain ⟨b1, b2, b3, b4, b5, b6, b7, b8, b9⟩ := loadFrames_spec l s1 out a1 a2
      ⟨hsrt.2, fun x hx => ht.2 x (by simp [hx])⟩
      (fun x hx => by
        obtain ⟨c1, c2, _⟩ := a7 x.1 (hdiff x hx)
        rw [c1, c2]; exact hn x (by simp [hx]))
      (fun x hx => hf x (by simp [hx])) h
    have hnot : e.1 ∉ l.map Prod.fst := by
      intro hm
      obtain ⟨x, hx, he⟩ := List.mem_map.1 hm
      exact hdiff x hx he
    refine ⟨b1, b2, b3.trans a3, b4.trans a4, b5.trans a5, ?_, ?_, ?_, fun h => b9 (a9 h)⟩
    · intro x hx
      rcases List.mem_cons.1 hx with rfl | hx
      · exact a6.congr (b7 x.1 hnot).1 (b7 x.1 hnot).2.1 b3
      · exact b6 x hx
    · intro t htn
      rw [List.map_cons, List.mem_cons, not_or] at htn
      obtain ⟨c1, c2, c3⟩ := b7 t htn.2
      obtain ⟨d1, d2, d3⟩ := a7 t htn.1
      exact ⟨c1.trans d1, c2.trans d2, c3.trans d3⟩
    · intro t
      rw [b8, a8, List.map_cons, List.mem_cons]
      tauto

end Yac.Calib
