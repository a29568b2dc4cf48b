import Verif.Calib.CameraModel
import Verif.AprilGrid.Lemmas
import Verif.AprilGrid.Reads
import Verif.Solver.BookLemmas

namespace Yac.SMap
variable {κ ν : Type} [LinearOrder κ]

theorem find_map {ν' : Type} (f : κ → ν → ν') (k : κ) (m : List (κ × ν)) :
    find k (m.map (fun p => (p.1, f p.1 p.2))) = (find k m).map (f k) := by
  induction m with
  | nil => rfl
  | cons p m ih =>
    rw [List.map_cons, find, find, ih]
    split_ifs with h
    · subst h; rfl
    · rfl

theorem map_sorted {ν' : Type} (f : κ → ν → ν') (m : List (κ × ν)) (h : Sorted m) :
    Sorted (m.map (fun p => (p.1, f p.1 p.2))) := by
  rw [Sorted, List.pairwise_map]
  exact h

theorem map_fst {ν' : Type} (f : κ → ν → ν') (m : List (κ × ν)) :
    (m.map (fun p => (p.1, f p.1 p.2))).map Prod.fst = m.map Prod.fst := by
  simp [List.map_map, Function.comp_def]

theorem erase_set (k : κ) (v : ν) (m : List (κ × ν)) (h : Sorted m) (hk : find k m = none) :
    erase k (set k v m) = m := by
  refine sorted_ext (erase_sorted _ _ (set_sorted _ _ _ h)) h (fun k' => ?_)
  rw [find_erase, find_set]
  split_ifs with h'
  · rw [h', hk]
  · rfl

theorem mem_of_find {k : κ} {v : ν} {m : List (κ × ν)} (h : find k m = some v) : (k, v) ∈ m := by
  induction m with
  | nil => simp [find] at h
  | cons p m ih =>
    rw [find] at h
    split_ifs at h with h'
    · obtain ⟨a, b⟩ := p
      simp only at h' h
      subst h'; simp at h; subst h; simp
    · exact List.mem_cons_of_mem _ (ih h)

end Yac.SMap

namespace Yac.Calib

open Yac.AprilGrid (Grid Meas Row)
open Yac.Solver (CBook CInv insSet mem_insSet)

variable {K V : Type} [Field K] [LinearOrder K]

theorem bind_ok {α β : Type} {x : Except Fault α} {f : α → Except Fault β} {b : β}
    (h : (x >>= f) = .ok b) : ∃ a, x = .ok a ∧ f a = .ok b := by
  cases x with
  | error e => simp [bind, Except.bind] at h
  | ok a => exact ⟨a, rfl, h⟩

/-! ## Measurements of a grid -/

/-- The measurement at row `i`, if it is set. -/
def rowMeas (g : Grid K) (i : Nat) : Option ((Int × Int) × (K × K)) :=
  match g.data[i]? with
  | some r => if r.flag > 0 then some ((((i / 4 : Nat) : Int), ((i % 4 : Nat) : Int)), (r.kx, r.ky))
    else none
  | none => none

theorem zip_append_single {α β : Type} (a : List α) (b : List β) (x : α) (y : β)
    (h : a.length = b.length) : (a ++ [x]).zip (b ++ [y]) = a.zip b ++ [(x, y)] := by
  rw [List.zip_append h]; rfl

theorem forRows_meas (g : Grid K) (n : Nat) (m : Meas K)
    (h : AprilGrid.forRows g.data n Meas.empty
      (fun acc i r => if r.flag > 0 then
        acc.push ((i / 4 : Nat) : Int) ((i % 4 : Nat) : Int) (r.kx, r.ky) (r.px, r.py, r.pz)
        else acc) = .ok m) :
    m.tagIds.length = m.corners.length ∧ m.corners.length = m.keypoints.length ∧
    (m.tagIds.zip m.corners).zip m.keypoints = (List.range n).filterMap (rowMeas g) := by
  induction n generalizing m with
  | zero =>
    simp only [AprilGrid.forRows, List.range_zero, List.foldlM_nil, AprilGrid.pure_eq_ok,
      Except.ok.injEq] at h
    subst h; simp [Meas.empty]
  | succ n ih =>
    rw [AprilGrid.forRows, List.range_succ, AprilGrid.foldlM_concat] at h
    obtain ⟨m', h1, h2⟩ := bind_ok h
    obtain ⟨r, h3, h4⟩ := bind_ok h2
    obtain ⟨l1, l2, hz⟩ := ih m' h1
    have hr : g.data[n]? = some r := by
      have := (AprilGrid.readRow_ok_iff _ _ _).mp h3
      simpa using this.2
    simp only [AprilGrid.pure_eq_ok, Except.ok.injEq] at h4
    rw [List.range_succ, List.filterMap_append]
    by_cases hf : r.flag > 0
    · rw [if_pos hf] at h4
      subst h4
      simp only [Meas.push, List.length_append, l1, l2, List.length_cons, List.length_nil, true_and]
      rw [zip_append_single _ _ _ _ l1, zip_append_single _ _ _ _ (by simp [l1, l2]), hz]
      congr 1
      simp [rowMeas, hr, hf]
    · rw [if_neg hf] at h4
      subst h4
      refine ⟨l1, l2, ?_⟩
      rw [hz]; simp [rowMeas, hr, hf]

/-- The measurements a view takes from a grid. -/
def gridMeas (g : Grid K) : List ((Int × Int) × (K × K)) :=
  (List.range (g.tagRows * g.tagCols * 4)).filterMap (rowMeas g)

theorem getMeasurements_list (g : Grid K) (m : Meas K) (hd : g.detected = true)
    (h : AprilGrid.getMeasurements g Meas.empty = .ok m) :
    (m.tagIds.zip m.corners).zip m.keypoints = gridMeas g := by
  rw [AprilGrid.getMeasurements, if_neg (by simp [hd])] at h
  exact (forRows_meas g _ m h).2.2

theorem rowMeas_some (g : Grid K) (i : Nat) (x : (Int × Int) × (K × K)) (h : rowMeas g i = some x) :
    ∃ r, g.data[i]? = some r ∧ r.flag > 0 ∧
      x = ((((i / 4 : Nat) : Int), ((i % 4 : Nat) : Int)), (r.kx, r.ky)) := by
  unfold rowMeas at h
  split at h
  · rename_i r hr
    split_ifs at h with hf
    exact ⟨r, hr, hf, (Option.some.inj h).symm⟩
  · simp at h

theorem gridMeas_has (g : Grid K) (hi : g.init = true) (x) (hx : x ∈ gridMeas g) :
    AprilGrid.has g x.1.1 x.1.2 = .ok true := by
  rw [gridMeas, List.mem_filterMap] at hx
  obtain ⟨i, _, hi'⟩ := hx
  obtain ⟨r, hr, hf, rfl⟩ := rowMeas_some g i x hi'
  have hidx : (((i / 4 : Nat) : Int) * 4 + ((i % 4 : Nat) : Int)) = (i : Int) := by omega
  have hlt : i < g.data.length := by
    by_contra h; rw [List.getElem?_eq_none (by omega)] at hr; simp at hr
  simp only [AprilGrid.has, hi, if_true, hidx]
  rw [AprilGrid.readRow_nat _ _ hlt]
  rw [List.getElem?_eq_getElem hlt] at hr
  have : g.data[i] = r := Option.some.inj hr
  rw [this]
  simp only [AprilGrid.ok_bind, AprilGrid.pure_eq_ok]
  rw [if_neg (by omega)]

theorem gridMeas_nodup (g : Grid K) : ((gridMeas g).map Prod.fst).Nodup := by
  rw [gridMeas, List.map_filterMap]
  refine List.Nodup.filterMap ?_ List.nodup_range
  intro i j b hb hb'
  simp only [Option.mem_def, Option.map_eq_some_iff] at hb hb'
  obtain ⟨x, hx, rfl⟩ := hb
  obtain ⟨y, hy, he⟩ := hb'
  obtain ⟨r, _, _, rfl⟩ := rowMeas_some g i x hx
  obtain ⟨r', _, _, rfl⟩ := rowMeas_some g j y hy
  simp only [Prod.mk.injEq] at he
  omega

/-- Number of corners set in a grid. -/
def setCorners (g : Grid K) : Nat := (gridMeas g).length

/-! ## Removing a corner from a grid -/

theorem has_true_iff (g : Grid K) (t c : Int) (ht : 0 ≤ t * 4 + c) :
    AprilGrid.has g t c = .ok true ↔ g.init = true ∧ ∃ r, g.data[(t * 4 + c).toNat]? = some r ∧ r.flag > 0 := by
  unfold AprilGrid.has
  cases hi : g.init with
  | false => simp
  | true =>
    simp only [if_true, true_and]
    cases hr : AprilGrid.readRow g.data (t * 4 + c) with
    | error e =>
      simp only [AprilGrid.error_bind, reduceCtorEq, false_iff]
      rintro ⟨r, h1, _⟩
      have := (AprilGrid.readRow_ok_iff g.data (t * 4 + c) r).mpr ⟨ht, h1⟩
      rw [hr] at this; simp at this
    | ok r =>
      have := ((AprilGrid.readRow_ok_iff g.data (t * 4 + c) r).mp hr).2
      simp only [AprilGrid.ok_bind, AprilGrid.pure_eq_ok, this, Option.some.injEq, exists_eq_left',
        Except.ok.injEq]
      split_ifs with h <;> simp <;> omega

theorem remove_held (g : Grid K) (t c : Int) (ht : 0 ≤ t * 4 + c)
    (h : AprilGrid.has g t c = .ok true) :
    ∃ g', AprilGrid.remove g t c = .ok g' ∧ g'.nbDetections = max (g.nbDetections - 1) 0 ∧
      AprilGrid.has g' t c = .ok false ∧
      g'.init = true ∧ g'.timestamp = g.timestamp ∧
      ∀ t' c', t' * 4 + c' ≠ t * 4 + c → 0 ≤ t' * 4 + c' →
        AprilGrid.has g' t' c' = AprilGrid.has g t' c' := by
  obtain ⟨hi, r, hr, hf⟩ := (has_true_iff g t c ht).mp h
  have hlt : (t * 4 + c).toNat < g.data.length := by
    by_contra h; rw [List.getElem?_eq_none (by omega)] at hr; simp at hr
  have hread : AprilGrid.readRow g.data (t * 4 + c) = .ok r :=
    (AprilGrid.readRow_ok_iff _ _ _).mpr ⟨ht, hr⟩
  refine ⟨⟨g.init, g.timestamp, g.tagRows, g.tagCols, g.tagSize, g.tagSpacing,
    if max (g.nbDetections - 1) 0 = 0 then false else true, max (g.nbDetections - 1) 0,
    g.data.set (t * 4 + c).toNat AprilGrid.zeroRow⟩, ?_, rfl, ?_, hi, rfl, ?_⟩
  · simp only [AprilGrid.remove, hread, AprilGrid.ok_bind, if_pos hf]
    rw [AprilGrid.writeRow, if_neg (by omega), if_pos hlt]
    rfl
  · simp only [AprilGrid.has, hi, if_true]
    rw [(AprilGrid.readRow_ok_iff _ _ AprilGrid.zeroRow).mpr ⟨ht, by rw [List.getElem?_set_self hlt]⟩]
    simp [AprilGrid.zeroRow]
  · intro t' c' hne h0
    simp only [AprilGrid.has, hi]
    have : AprilGrid.readRow (g.data.set (t * 4 + c).toNat AprilGrid.zeroRow) (t' * 4 + c') =
        AprilGrid.readRow g.data (t' * 4 + c') := by
      unfold AprilGrid.readRow
      rw [List.getElem?_set_ne (by omega)]
    rw [this]

end Yac.Calib
