import Verif.Image.Spec

/-! # Lemmas for C119 -/

namespace Yac.Image

open Yac.AprilGrid (Grid Row Shot Tag Board detectAll detectThread readRow writeRow ok_bind error_bind foldlM_concat)
open Yac.VI (St VEnv bindOk)

variable {D : Type}

theorem lastOf_concat (h : List (Int × Shot)) (cam c : Int) (sh : Shot) :
    lastOf (h ++ [(cam, sh)]) c = if c = cam then some sh else lastOf h c := by
  unfold lastOf
  by_cases hc : c = cam
  · subst hc; simp
  · have : ¬ cam = c := fun e => hc e.symm
    simp [hc, this]

/-- The buffer holds the last image of every camera. -/
structure Holds (buf h : List (Int × Shot)) : Prop where
  sorted : SMap.Sorted buf
  find : ∀ c, SMap.find c buf = lastOf h c

theorem Holds.nil : Holds [] [] := ⟨List.Pairwise.nil, fun _ => rfl⟩

theorem Holds.put {buf h : List (Int × Shot)} (H : Holds buf h) (cam : Int) (sh : Shot) :
    Holds (put buf cam sh) (h ++ [(cam, sh)]) := by
  refine ⟨SMap.set_sorted _ _ _ H.sorted, fun c => ?_⟩
  unfold Image.put
  rw [SMap.find_set, lastOf_concat, H.find]

theorem Holds.mem {buf h : List (Int × Shot)} (H : Holds buf h) (e : Int × Shot) :
    e ∈ buf ↔ lastOf h e.1 = some e.2 := by
  rw [← H.find]
  exact ((SMap.find_eq_some H.sorted).symm)

theorem Holds.ready {buf h : List (Int × Shot)} (H : Holds buf h) (ts : Int) :
    ready ts buf = true ↔ ∀ c sh, lastOf h c = some sh → ts ≤ sh.ts := by
  unfold Image.ready
  rw [List.all_eq_true]
  constructor
  · intro hr c sh hl
    have := hr (c, sh) ((H.mem _).mpr hl)
    simpa using this
  · intro hr e he
    have := hr e.1 e.2 ((H.mem e).mp he)
    simpa using this

/-! ### Rescaling -/

/-- A row after rescaling. -/
def scaledRow (k : ℚ) (r : Row ℚ) : Row ℚ := if r.flag > 0 then { r with kx := r.kx / k, ky := r.ky / k } else r

theorem read_some {d : List (Row ℚ)} {i : Nat} (h : i < d.length) : readRow d (i : Int) = .ok d[i] := by
  unfold readRow
  rw [if_neg (by omega)]
  simp [h]

theorem rescale_spec (k : ℚ) (g : Grid ℚ) (n : Nat) (hn : n ≤ g.data.length) :
    ∃ d, rescale n k g = .ok { g with data := d } ∧ d.length = g.data.length ∧
      ∀ j (h : j < d.length) (h' : j < g.data.length), d[j] = if j < n then scaledRow k g.data[j] else g.data[j] := by
  induction n with
  | zero => exact ⟨g.data, rfl, rfl, fun j h h' => by simp⟩
  | succ n ih =>
    obtain ⟨d, h1, h2, h3⟩ := ih (by omega)
    unfold rescale at h1 ⊢
    rw [List.range_succ, foldlM_concat, h1, ok_bind]
    unfold rescaleAt
    have hnd : n < d.length := by omega
    rw [read_some hnd, ok_bind]
    have hrow := h3 n hnd (by omega)
    rw [if_neg (by omega)] at hrow
    by_cases hf : d[n].flag > 0
    · rw [if_pos hf]
      unfold writeRow
      rw [if_neg (by omega), if_pos (by simpa using hnd), ok_bind]
      refine ⟨_, rfl, by simpa using h2, fun j h h' => ?_⟩
      rw [List.getElem_set]
      by_cases hj : j = n
      · subst hj
        rw [if_pos (by simp), if_pos (by omega)]
        unfold scaledRow
        rw [if_pos (hrow ▸ hf), hrow]
      · rw [if_neg (by simp; omega), h3 j (by omega) h']
        by_cases hlt : j < n
        · rw [if_pos hlt, if_pos (by omega)]
        · rw [if_neg hlt, if_neg (by omega)]
    · rw [if_neg hf]
      refine ⟨d, rfl, h2, fun j h h' => ?_⟩
      rw [h3 j h h']
      by_cases hj : j = n
      · subst hj
        rw [if_neg (by omega), if_pos (by omega)]
        unfold scaledRow
        rw [if_neg (by rw [← hrow]; exact hf)]
      · by_cases hlt : j < n
        · rw [if_pos hlt, if_pos (by omega)]
        · rw [if_neg hlt, if_neg (by omega)]

theorem read_scaled (k : ℚ) {d d' : List (Row ℚ)} (hl : d'.length = d.length)
    (h : ∀ j (h : j < d'.length) (h' : j < d.length), d'[j] = scaledRow k d[j]) (i : Int) :
    readRow d' i = (readRow d i).map (scaledRow k) := by
  unfold readRow
  split_ifs with hi
  · rfl
  · by_cases hlt : i.toNat < d.length
    · have e1 : d[i.toNat]? = some d[i.toNat] := List.getElem?_eq_getElem hlt
      have e2 : d'[i.toNat]? = some d'[i.toNat] := List.getElem?_eq_getElem (by omega)
      rw [e1, e2, h _ (by omega) hlt]
      rfl
    · have e1 : d[i.toNat]? = none := List.getElem?_eq_none (by omega)
      have e2 : d'[i.toNat]? = none := List.getElem?_eq_none (by omega)
      rw [e1, e2]
      rfl

theorem scaledRow_flag (k : ℚ) (r : Row ℚ) : (scaledRow k r).flag = r.flag := by
  unfold scaledRow
  split_ifs <;> rfl

theorem rescale_scaled (k : ℚ) (g : Grid ℚ) : ∃ g', rescale g.data.length k g = .ok g' ∧ Scaled k g g' := by
  obtain ⟨d, h1, h2, h3⟩ := rescale_spec k g g.data.length (Nat.le_refl _)
  have hr : ∀ i, readRow d i = (readRow g.data i).map (scaledRow k) :=
    read_scaled k h2 (fun j h h' => by rw [h3 j h h', if_pos h'])
  refine ⟨_, h1, ⟨rfl, rfl, rfl, rfl, rfl, rfl, rfl, rfl, ?_, ?_⟩⟩
  · intro t c
    unfold AprilGrid.has
    simp only [hr]
    cases readRow g.data (t * 4 + c) with
    | error e => rfl
    | ok r =>
      show (if g.init = true then (Except.ok (scaledRow k r) >>= _) else _) = (if g.init = true then (Except.ok r >>= _) else _)
      rw [ok_bind, ok_bind, scaledRow_flag]
  · intro t c x y h
    unfold AprilGrid.keypoint at h ⊢
    simp only [hr]
    cases hrd : readRow g.data (t * 4 + c) with
    | error e => rw [hrd] at h; cases h
    | ok r =>
      rw [hrd, ok_bind] at h
      show (Except.ok (scaledRow k r) >>= _) = _
      rw [ok_bind, scaledRow_flag]
      by_cases hf : r.flag > 0
      · rw [if_pos hf] at h ⊢
        simp only [AprilGrid.pure_eq_ok, Except.ok.injEq, Prod.mk.injEq] at h ⊢
        unfold scaledRow
        rw [if_pos hf]
        exact ⟨by rw [← h.1], by rw [← h.2]⟩
      · rw [if_neg hf] at h
        cases h

theorem Scaled.one (g : Grid ℚ) : Scaled 1 g g :=
  ⟨rfl, rfl, rfl, rfl, rfl, rfl, rfl, rfl, fun _ _ => rfl, fun t c x y h => by rw [h]; simp⟩

/-! ### The detector keeps the size of the board -/

theorem add_len {g g' : Grid ℚ} {t c : Int} {kp : ℚ × ℚ} (h : AprilGrid.add g t c kp = .ok g') :
    g'.data.length = g.data.length := by
  unfold AprilGrid.add at h
  obtain ⟨p, -, h2⟩ := bindOk h
  obtain ⟨d, h3, h4⟩ := bindOk h2
  rw [AprilGrid.pure_eq_ok] at h4
  injection h4 with h4
  subst h4
  unfold writeRow at h3
  split_ifs at h3
  injection h3 with h3
  subst h3
  simp

theorem addAll_len (ms : List AprilGrid.Corner) : ∀ {g g' : Grid ℚ}, AprilGrid.addAll g ms = .ok g' →
    g'.data.length = g.data.length := by
  induction ms with
  | nil => intro g g' h; injection h with h; rw [h]
  | cons m ms ih =>
    intro g g' h
    unfold AprilGrid.addAll at h
    rw [List.foldlM_cons] at h
    obtain ⟨g1, h1, h2⟩ := bindOk h
    rw [ih (g := g1) (g' := g') h2, add_len h1]

theorem thread_len {b : Board} {srt : List Tag → List Tag} {sub : Tag → Fin 4 → ℚ × ℚ} {ts : Int}
    {im : AprilGrid.Image} {tags : List Tag} {g : Grid ℚ} (h : detectThread b srt sub ts im tags = .ok g) :
    g.data.length = b.rows * b.cols * 4 := by
  have hnew : (AprilGrid.new ts b.rows b.cols b.size b.spacing).data.length = b.rows * b.cols * 4 := by
    simp [AprilGrid.new]
  unfold detectThread at h
  simp only at h
  split_ifs at h
  · injection h with h; rw [← h, hnew]
  · injection h with h; rw [← h, hnew]
  · rw [addAll_len _ h, hnew]

/-! ### Rescaling of a map -/

theorem rescaleAll_spec (n : Nat) (k : ℚ) (l : List (Int × Grid ℚ)) (hl : ∀ e ∈ l, e.2.data.length = n) :
    ∃ l', rescaleAll n k l = .ok l' ∧ l'.map Prod.fst = l.map Prod.fst ∧
      ∀ c, match SMap.find c l with
        | none => SMap.find c l' = none
        | some g => ∃ g', SMap.find c l' = some g' ∧ Scaled k g g' := by
  induction l with
  | nil => exact ⟨[], rfl, rfl, fun c => rfl⟩
  | cons e l ih =>
    obtain ⟨l', h1, h2, h3⟩ := ih (fun x hx => hl x (List.mem_cons_of_mem _ hx))
    have hn := hl e (by simp)
    obtain ⟨g', h4, h5⟩ := rescale_scaled k e.2
    rw [hn] at h4
    refine ⟨(e.1, g') :: l', ?_, ?_, ?_⟩
    · unfold rescaleAll at h1 ⊢
      rw [List.mapM_cons, h4, ok_bind, ok_bind, h1, ok_bind]
      rfl
    · simp [h2]
    · intro c
      obtain ⟨c0, g0⟩ := e
      by_cases hc : c0 = c
      · have e1 : SMap.find c ((c0, g0) :: l) = some g0 := by simp [SMap.find, hc]
        have e2 : SMap.find c ((c0, g') :: l') = some g' := by simp [SMap.find, hc]
        rw [e1]
        exact ⟨g', e2, h5⟩
      · have e1 : SMap.find c ((c0, g0) :: l) = SMap.find c l := by simp [SMap.find, hc]
        have e2 : SMap.find c ((c0, g') :: l') = SMap.find c l' := by simp [SMap.find, hc]
        rw [e1, e2]
        exact h3 c

end Yac.Image
