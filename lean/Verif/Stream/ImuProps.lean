import Verif.Stream.ImuModel
import Verif.AprilGrid.Lemmas
import Mathlib.Data.List.Induction

/-!
# C23, C24: the IMU buffer
-/

namespace Yac.Stream
variable {V : Type}

/-! ## Specification -/

/-- A measurement: timestamp, acceleration, angular rate. -/
abbrev Meas (V : Type) := Int × V × V

/-- The buffer holding the given measurements. -/
def ofMeas (l : List (Meas V)) : Imu V := ⟨l.map (·.1), l.map (·.2.1), l.map (·.2.2)⟩

/-- Timestamps strictly increase. -/
def Increasing (l : List (Meas V)) : Prop := l.Pairwise (fun a b => a.1 < b.1)

/-! ## Lemmas -/

theorem ofMeas_add (l : List (Meas V)) (m : Meas V) :
    (ofMeas l).add m.1 m.2.1 m.2.2 = ofMeas (l ++ [m]) := by
  simp [ofMeas, Imu.add]

theorem at_pre {α : Type} (pre : List α) (x : α) (suf : List α) :
    at? (pre ++ x :: suf) pre.length = .ok x := by
  simp [at?]

theorem at_ofMeas (pre suf : List (Meas V)) (m : Meas V) :
    at? (ofMeas (pre ++ m :: suf)).ts pre.length = .ok m.1 ∧
    at? (ofMeas (pre ++ m :: suf)).acc pre.length = .ok m.2.1 ∧
    at? (ofMeas (pre ++ m :: suf)).gyr pre.length = .ok m.2.2 := by
  simp only [ofMeas, List.map_append, List.map_cons]
  refine ⟨?_, ?_, ?_⟩
  · have := at_pre (pre.map (·.1)) m.1 (suf.map (·.1)); simpa using this
  · have := at_pre (pre.map (·.2.1)) m.2.1 (suf.map (·.2.1)); simpa using this
  · have := at_pre (pre.map (·.2.2)) m.2.2 (suf.map (·.2.2)); simpa using this

theorem push_ofMeas (pre suf : List (Meas V)) (m : Meas V) (new : List (Meas V)) :
    pushSample (ofMeas (pre ++ m :: suf)) pre.length (ofMeas new) = .ok (ofMeas (new ++ [m])) := by
  obtain ⟨h1, h2, h3⟩ := at_ofMeas pre suf m
  unfold pushSample
  rw [h1, h2, h3]
  exact congrArg Except.ok (ofMeas_add new m)

/-- What the loop of `trim` has collected after the samples `pre`. -/
def kept (t : Int) (pre : List (Meas V)) : List (Meas V) :=
  if pre.filter (fun m => decide (t ≤ m.1)) = [] then []
  else (pre.filter (fun m => decide (m.1 < t))).getLast?.toList ++
    pre.filter (fun m => decide (t ≤ m.1))

theorem trimStep_spec (t : Int) (pre suf : List (Meas V)) (m : Meas V)
    (hinc : Increasing (pre ++ m :: suf)) :
    trimStep (ofMeas (pre ++ m :: suf)) t (ofMeas (kept t pre)) pre.length =
      .ok (ofMeas (kept t (pre ++ [m]))) := by
  obtain ⟨h1, -, -⟩ := at_ofMeas pre suf m
  have hpm : ∀ x ∈ pre, x.1 < m.1 := by
    intro x hx
    exact (List.pairwise_append.mp hinc).2.2 x hx m (by simp)
  unfold trimStep
  rw [h1]
  show (if t ≤ m.1 then _ else _) = _
  by_cases ht : t ≤ m.1
  · rw [if_pos ht]
    have hfm : ([m] : List (Meas V)).filter (fun m => decide (t ≤ m.1)) = [m] := by simp [ht]
    have hfl : ([m] : List (Meas V)).filter (fun m => decide (m.1 < t)) = [] := by simp [ht]
    by_cases hk : pre.filter (fun m => decide (t ≤ m.1)) = []
    · have hkn : kept t pre = [] := by simp only [kept, hk, if_true]
      have hall : pre.filter (fun m => decide (m.1 < t)) = pre := by
        rw [List.filter_eq_self]
        intro x hx
        have := (List.filter_eq_nil_iff.mp hk) x hx
        simpa using this
      have hkm : kept t (pre ++ [m]) = pre.getLast?.toList ++ [m] := by
        simp only [kept, List.filter_append, hfm, hfl, hk, hall, List.nil_append, List.append_nil]
        simp
      rw [hkn, hkm]
      rcases List.eq_nil_or_concat pre with rfl | ⟨p, x, rfl⟩
      · have := push_ofMeas [] suf m ([] : List (Meas V))
        simpa using this
      · have hlen : 0 < (p.concat x).length ∧ (ofMeas ([] : List (Meas V))).ts.length = 0 := by
          simp [ofMeas]
        rw [if_pos hlen]
        have e1 : p.concat x ++ m :: suf = p ++ x :: (m :: suf) := by simp
        have hp1 := push_ofMeas p (m :: suf) x ([] : List (Meas V))
        have e2 : (p.concat x).length - 1 = p.length := by simp
        rw [e2, e1, hp1]
        show pushSample _ _ (ofMeas ([] ++ [x])) = _
        have hp2 := push_ofMeas (p.concat x) suf m ([x] : List (Meas V))
        rw [e1] at hp2
        rw [List.nil_append, hp2]
        simp
    · have hkn : (ofMeas (kept t pre)).ts.length ≠ 0 := by
        simp only [kept, if_neg hk, ofMeas, List.length_map, List.length_append]
        have := List.length_pos_iff.mpr hk
        omega
      rw [if_neg (fun h => hkn h.2)]
      show pushSample _ _ (ofMeas (kept t pre)) = _
      rw [push_ofMeas]
      have hne : pre.filter (fun m => decide (t ≤ m.1)) ++ [m] ≠ [] := by simp
      simp only [kept, List.filter_append, hfm, hfl, if_neg hk, if_neg hne, List.append_nil,
        List.append_assoc]
  · rw [if_neg ht]
    have hfm : ([m] : List (Meas V)).filter (fun m => decide (t ≤ m.1)) = [] := by simp [ht]
    have hpre : pre.filter (fun m => decide (t ≤ m.1)) = [] := by
      rw [List.filter_eq_nil_iff]
      intro x hx
      have := hpm x hx
      simp only [decide_eq_true_eq]; omega
    simp only [kept, List.filter_append, hfm, hpre, List.append_nil, if_true]

theorem trim_fold (t : Int) (l : List (Meas V)) (hinc : Increasing l) (k : Nat) (hk : k ≤ l.length) :
    (List.range k).foldlM (trimStep (ofMeas l) t) (ofMeas []) = .ok (ofMeas (kept t (l.take k))) := by
  induction k with
  | zero => simp [kept, pure, Except.pure]
  | succ k ih =>
    rw [List.range_succ, List.foldlM_append, ih (by omega)]
    show ([k].foldlM (trimStep (ofMeas l) t) (ofMeas (kept t (l.take k)))) = _
    have hlt : k < l.length := by omega
    have hsplit : l = l.take k ++ l[k] :: l.drop (k + 1) := by
      rw [← List.drop_eq_getElem_cons hlt, List.take_append_drop]
    have hlen : (l.take k).length = k := by simp; omega
    have := trimStep_spec t (l.take k) (l.drop (k + 1)) l[k] (by rw [← hsplit]; exact hinc)
    rw [← hsplit, hlen] at this
    simp only [List.foldlM_cons, this, List.foldlM_nil]
    rw [List.take_append_getElem hlt]
    rfl

theorem trim_eq (t : Int) (l : List (Meas V)) (hinc : Increasing l) :
    (ofMeas l).trim t = .ok (ofMeas (if l = [] ∨ ∀ m ∈ l, t < m.1 then l else kept t l)) := by
  cases l with
  | nil => rfl
  | cons m l =>
    show (if t < m.1 then _ else _) = _
    have hall : (∀ x ∈ m :: l, t < x.1) ↔ t < m.1 := by
      refine ⟨fun h => h m (by simp), fun h x hx => ?_⟩
      rcases List.mem_cons.mp hx with rfl | hx
      · exact h
      · exact lt_trans h ((List.pairwise_cons.mp hinc).1 x hx)
    by_cases ht : t < m.1
    · rw [if_pos ht, if_pos (Or.inr (hall.mpr ht))]
    · rw [if_neg ht, if_neg (by rw [hall]; simp [ht])]
      have := trim_fold t (m :: l) hinc (m :: l).length (le_refl _)
      rw [List.take_length] at this
      simpa [ofMeas] using this

/-! ## C23 -/

/-- **C23, for a trim time not after the last measurement.**  The trimmed buffer holds exactly
the last measurement before `t`, if there is one, followed by all measurements from `t` on, in
order and with the three sequences aligned. -/
theorem C23_trim_partial (l : List (Meas V)) (t : Int) (hinc : Increasing l)
    (ht : ∃ m ∈ l, t ≤ m.1) :
    (ofMeas l).trim t = .ok (ofMeas ((l.filter (fun m => decide (m.1 < t))).getLast?.toList ++
      l.filter (fun m => decide (t ≤ m.1)))) := by
  rw [trim_eq t l hinc]
  obtain ⟨m, hm, hmt⟩ := ht
  congr 2
  by_cases hc : l = [] ∨ ∀ m ∈ l, t < m.1
  · rw [if_pos hc]
    rcases hc with rfl | hc
    · simp at hm
    · have h1 : l.filter (fun m => decide (m.1 < t)) = [] := by
        rw [List.filter_eq_nil_iff]; intro x hx; have := hc x hx; simp; omega
      have h2 : l.filter (fun m => decide (t ≤ m.1)) = l := by
        rw [List.filter_eq_self]; intro x hx; have := hc x hx; simp; omega
      simp [h1, h2]
  · rw [if_neg hc, kept, if_neg]
    intro h
    have := List.filter_eq_nil_iff.mp h m hm
    simp at this; omega

/-- **C23.**  Under the same conditions the buffer still brackets `t`: nothing needed is lost.
Every measurement from `t` on is kept, and if some measurement precedes `t` the first kept one
is the latest of those. -/
theorem C23_bracket (l : List (Meas V)) (t : Int) (hinc : Increasing l) (ht : ∃ m ∈ l, t ≤ m.1)
    (b : Imu V) (hb : (ofMeas l).trim t = .ok b) :
    ∃ l', b = ofMeas l' ∧ Increasing l' ∧ l'.Sublist l ∧ (∀ m ∈ l, t ≤ m.1 → m ∈ l') ∧
      ((∃ m ∈ l, m.1 < t) → ∃ m rest, l' = m :: rest ∧ m.1 < t ∧ (∀ x ∈ l, x.1 < t → x.1 ≤ m.1) ∧
        ∀ x ∈ rest, t ≤ x.1) := by
  have hpre : ((l.filter (fun m => decide (m.1 < t))).getLast?.toList ++
      l.filter (fun m => decide (t ≤ m.1))).Sublist l := by
    clear ht hb
    induction l with
    | nil => simp
    | cons m l ih =>
      have hinc' : Increasing l := (List.pairwise_cons.mp hinc).2
      by_cases hm : m.1 < t
      · have h1 : (m :: l).filter (fun m => decide (t ≤ m.1)) = l.filter (fun m => decide (t ≤ m.1)) := by
          simp [hm]
        have h2 : (m :: l).filter (fun m => decide (m.1 < t)) =
          m :: l.filter (fun m => decide (m.1 < t)) := by simp [hm]
        rw [h1, h2]
        cases hl : l.filter (fun m => decide (m.1 < t)) with
        | nil => simp
        | cons y ys =>
          have := ih hinc'
          rw [hl] at this
          rw [List.getLast?_cons_cons]
          exact this.cons m
      · have h1 : (m :: l).filter (fun m => decide (t ≤ m.1)) =
          m :: l.filter (fun m => decide (t ≤ m.1)) :=
          List.filter_cons_of_pos (by simpa using hm)
        have h2 : (m :: l).filter (fun m => decide (m.1 < t)) = [] := by
          rw [List.filter_eq_nil_iff]
          intro x hx
          rcases List.mem_cons.mp hx with rfl | hx
          · simp; omega
          · have := (List.pairwise_cons.mp hinc).1 x hx; simp; omega
        rw [h1, h2]
        simp
  rw [C23_trim_partial l t hinc ht] at hb
  refine ⟨_, (Except.ok.inj hb).symm, hinc.sublist hpre, hpre, fun m hm hmt => ?_, ?_⟩
  · exact List.mem_append.mpr (Or.inr (List.mem_filter.mpr ⟨hm, by simpa using hmt⟩))
  · rintro ⟨m, hm, hmt⟩
    have hne : l.filter (fun m => decide (m.1 < t)) ≠ [] :=
      List.ne_nil_of_mem (List.mem_filter.mpr ⟨hm, by simpa using hmt⟩)
    obtain ⟨p, x, hp⟩ := List.eq_nil_or_concat _ |>.resolve_left hne
    have hx : x ∈ l.filter (fun m => decide (m.1 < t)) := by rw [hp]; simp
    refine ⟨x, l.filter (fun m => decide (t ≤ m.1)), by rw [hp]; simp,
      by simpa using (List.mem_filter.mp hx).2, fun y hy hyt => ?_, fun y hy => ?_⟩
    · have hy' : y ∈ l.filter (fun m => decide (m.1 < t)) :=
        List.mem_filter.mpr ⟨hy, by simpa using hyt⟩
      have hs : Increasing (l.filter (fun m => decide (m.1 < t))) := hinc.sublist List.filter_sublist
      rw [hp] at hy' hs
      simp only [List.concat_eq_append] at hy' hs
      rcases List.mem_append.mp hy' with hy' | hy'
      · exact le_of_lt ((List.pairwise_append.mp hs).2.2 y hy' x (by simp))
      · simp only [List.mem_singleton] at hy'; rw [hy']
    · simpa using (List.mem_filter.mp hy).2

/-- **C23 refuted.**  Trimming at a time after the last measurement empties the buffer, although
the last measurement precedes `t` and should be kept. -/
theorem C23_trim_refuted (l : List (Meas V)) (t : Int) (hinc : Increasing l) (hne : l ≠ [])
    (hall : ∀ m ∈ l, m.1 < t) : (ofMeas l).trim t = .ok (ofMeas []) := by
  rw [trim_eq t l hinc, if_neg]
  · congr 2
    simp only [kept]
    rw [if_pos]
    rw [List.filter_eq_nil_iff]
    intro x hx; have := hall x hx; simp; omega
  · rintro (h | h)
    · exact hne h
    · obtain ⟨m, hm⟩ := List.exists_mem_of_ne_nil l hne
      have := h m hm; have := hall m hm; omega

example : (ofMeas [((1 : Int), (1 : Int), (1 : Int)), (2, 2, 2), (3, 3, 3), (4, 4, 4)]).trim 3 =
    .ok (ofMeas [(2, 2, 2), (3, 3, 3), (4, 4, 4)]) := by decide

/-! ## C24 -/

theorem extract_phase2 (t0 t1 : Int) (pre suf : List (Meas V)) (hinc : Increasing (pre ++ suf))
    (h0 : ∀ m ∈ suf, t0 ≤ m.1) (buf : List (Meas V)) (hb : buf ≠ []) (rm : Nat) (hp : pre ≠ []) :
    ((∃ m ∈ suf, m.1 = t1) →
      extractLoop (ofMeas (pre ++ suf)) t0 t1 (List.range' pre.length suf.length) (ofMeas buf) rm =
        .ok (ofMeas (buf ++ suf.filter (fun m => decide (m.1 ≤ t1))),
          if suf.filter (fun m => decide (m.1 < t1)) = [] then rm
          else pre.length + (suf.filter (fun m => decide (m.1 < t1))).length - 1)) ∧
    ((∀ m ∈ suf, m.1 ≠ t1) → (∃ m ∈ suf, t1 < m.1) →
      extractLoop (ofMeas (pre ++ suf)) t0 t1 (List.range' pre.length suf.length) (ofMeas buf) rm =
        .error .uninit) := by
  induction suf generalizing pre buf rm with
  | nil => simp
  | cons m suf ih =>
    obtain ⟨a1, a2, a3⟩ := at_ofMeas pre suf m
    have hm0 : ¬ m.1 < t0 := not_lt.mpr (h0 m (by simp))
    have hbl : ¬ ((ofMeas buf).ts.length = 0 ∧ t0 < m.1) := by
      intro h
      have := List.length_pos_iff.mpr hb
      simp [ofMeas] at h; exact hb h.1
    have hpl : pre.length ≠ 0 := by simpa using hp
    have hms : ∀ x ∈ suf, m.1 < x.1 := fun x hx =>
      (List.pairwise_cons.mp (List.pairwise_append.mp hinc).2.1).1 x hx
    have e : pre ++ m :: suf = (pre ++ [m]) ++ suf := by simp
    have el : pre.length + 1 = (pre ++ [m]).length := by simp
    have ih' := ih (pre ++ [m]) (by rw [← e]; exact hinc) (fun x hx => h0 x (by simp [hx]))
      (buf ++ [m]) (by simp) pre.length (by simp)
    simp only [List.length_cons, List.range'_succ, extractLoop, a1, a2, a3]
    refine ⟨fun hex => ?_, fun hno hgt => ?_⟩
    · have hle : ¬ t1 < m.1 := by
        obtain ⟨x, hx, hxt⟩ := hex
        rcases List.mem_cons.mp hx with rfl | hx
        · omega
        · have := hms x hx; omega
      show (if m.1 < t0 then _ else if _ then _ else if _ then _ else if _ then _ else _) = _
      rw [if_neg hm0, if_neg hbl, if_neg hle, ofMeas_add]
      by_cases he : m.1 = t1
      · rw [if_pos he]
        have f1 : (m :: suf).filter (fun m => decide (m.1 ≤ t1)) = [m] := by
          rw [List.filter_cons_of_pos (by simp [he]), List.filter_eq_nil_iff.mpr]
          intro x hx; have := hms x hx; simp; omega
        have f2 : (m :: suf).filter (fun m => decide (m.1 < t1)) = [] := by
          rw [List.filter_eq_nil_iff]
          intro x hx
          rcases List.mem_cons.mp hx with rfl | hx
          · simp [he]
          · have := hms x hx; simp; omega
        rw [f1, f2, if_pos rfl]
      · rw [if_neg he, e, el]
        have hlt : m.1 < t1 := by omega
        have hex' : ∃ x ∈ suf, x.1 = t1 := by
          obtain ⟨x, hx, hxt⟩ := hex
          rcases List.mem_cons.mp hx with rfl | hx
          · exact absurd hxt he
          · exact ⟨x, hx, hxt⟩
        rw [ih'.1 hex']
        have f1 : (m :: suf).filter (fun m => decide (m.1 ≤ t1)) =
            m :: suf.filter (fun m => decide (m.1 ≤ t1)) :=
          List.filter_cons_of_pos (by simp; omega)
        have f2 : (m :: suf).filter (fun m => decide (m.1 < t1)) =
            m :: suf.filter (fun m => decide (m.1 < t1)) :=
          List.filter_cons_of_pos (by simp; omega)
        rw [f1, f2]
        simp only [List.append_assoc, List.singleton_append, reduceCtorEq, if_false,
          List.length_cons, List.length_append, List.length_nil]
        congr 2
        split_ifs with h
        · rw [h]; simp
        · omega
    · show (if m.1 < t0 then _ else if _ then _ else if _ then _ else if _ then _ else _) = _
      rw [if_neg hm0, if_neg hbl, if_neg hpl]
      by_cases hgtm : t1 < m.1
      · rw [if_pos hgtm]
      · rw [if_neg hgtm, ofMeas_add, if_neg (hno m (by simp)), e, el]
        refine ih'.2 (fun x hx => hno x (by simp [hx])) ?_
        obtain ⟨x, hx, hxt⟩ := hgt
        rcases List.mem_cons.mp hx with rfl | hx
        · exact absurd hxt hgtm
        · exact ⟨x, hx, hxt⟩

/-- What `extract` leaves behind: the samples from the last one before `t1` on; the whole buffer
when `t0 = t1`. -/
def leftover (t0 t1 : Int) (l : List (Meas V)) : List (Meas V) :=
  if t0 = t1 then l
  else (l.filter (fun m => decide (m.1 < t1))).getLast?.toList ++ l.filter (fun m => decide (t1 ≤ m.1))

theorem extract_phase1 (t0 t1 : Int) (h01 : t0 ≤ t1) (pre suf : List (Meas V))
    (hinc : Increasing (pre ++ suf)) (hp : ∀ m ∈ pre, m.1 < t0)
    (hfst : ∀ m ∈ (pre ++ suf).head?, m.1 ≤ t0) :
    ((∃ m ∈ suf, m.1 = t0) → (∃ m ∈ suf, m.1 = t1) →
      extractLoop (ofMeas (pre ++ suf)) t0 t1 (List.range' pre.length suf.length) (ofMeas []) 0 =
        .ok (ofMeas (suf.filter (fun m => decide (t0 ≤ m.1 ∧ m.1 ≤ t1))),
          if t0 = t1 then 0 else pre.length + (suf.filter (fun m => decide (m.1 < t1))).length - 1)) ∧
    ((∀ m ∈ suf, m.1 ≠ t0) → (∃ m ∈ suf, t0 < m.1) →
      extractLoop (ofMeas (pre ++ suf)) t0 t1 (List.range' pre.length suf.length) (ofMeas []) 0 =
        .error .uninit) ∧
    ((∀ m ∈ suf, m.1 ≠ t1) → (∃ m ∈ suf, t1 < m.1) →
      extractLoop (ofMeas (pre ++ suf)) t0 t1 (List.range' pre.length suf.length) (ofMeas []) 0 =
        .error .uninit) := by
  induction suf generalizing pre with
  | nil => simp
  | cons m suf ih =>
    obtain ⟨a1, a2, a3⟩ := at_ofMeas pre suf m
    have hms : ∀ x ∈ suf, m.1 < x.1 := fun x hx =>
      (List.pairwise_cons.mp (List.pairwise_append.mp hinc).2.1).1 x hx
    have e : pre ++ m :: suf = (pre ++ [m]) ++ suf := by simp
    have el : pre.length + 1 = (pre ++ [m]).length := by simp
    simp only [List.length_cons, List.range'_succ, extractLoop, a1, a2, a3]
    by_cases hlt : m.1 < t0
    · have ih' := ih (pre ++ [m]) (by rw [← e]; exact hinc)
        (by intro x hx; rcases List.mem_append.mp hx with hx | hx
            · exact hp x hx
            · simp only [List.mem_singleton] at hx; rw [hx]; exact hlt)
        (by rw [← e]; exact hfst)
      have strip : ∀ P : Meas V → Prop, ¬ P m → (∃ x ∈ m :: suf, P x) → ∃ x ∈ suf, P x := by
        rintro P hP ⟨x, hx, hxt⟩
        rcases List.mem_cons.mp hx with rfl | hx
        · exact absurd hxt hP
        · exact ⟨x, hx, hxt⟩
      have eqn : ∀ {α : Type} (x : α) (y : Except Fault (Imu V × Nat)),
          (if m.1 < t0 then extractLoop (ofMeas (pre ++ m :: suf)) t0 t1
            (List.range' (pre.length + 1) suf.length) (ofMeas []) 0 else y) =
          extractLoop (ofMeas ((pre ++ [m]) ++ suf)) t0 t1
            (List.range' (pre ++ [m]).length suf.length) (ofMeas []) 0 := by
        intro α x y; rw [if_pos hlt, e, el]
      refine ⟨fun h1 h2 => ?_, fun h1 h2 => ?_, fun h1 h2 => ?_⟩
      · refine (eqn () _).trans ?_
        rw [ih'.1 (strip (fun x => x.1 = t0) (by omega) h1)
          (strip (fun x => x.1 = t1) (by omega) h2)]
        have f1 : (m :: suf).filter (fun m => decide (t0 ≤ m.1 ∧ m.1 ≤ t1)) =
            suf.filter (fun m => decide (t0 ≤ m.1 ∧ m.1 ≤ t1)) :=
          List.filter_cons_of_neg (by simp; omega)
        have f2 : (m :: suf).filter (fun m => decide (m.1 < t1)) =
            m :: suf.filter (fun m => decide (m.1 < t1)) :=
          List.filter_cons_of_pos (by simp; omega)
        rw [f1, f2]
        simp only [List.length_cons, List.length_append, List.length_nil]
        congr 2
        split_ifs
        · rfl
        · omega
      · refine (eqn () _).trans ?_
        exact ih'.2.1 (fun x hx => h1 x (by simp [hx])) (strip (fun x => t0 < x.1) (by omega) h2)
      · refine (eqn () _).trans ?_
        exact ih'.2.2 (fun x hx => h1 x (by simp [hx])) (strip (fun x => t1 < x.1) (by omega) h2)
    · by_cases hgt : t0 < m.1
      · have hpn : pre.length ≠ 0 := by
          intro h
          rw [List.length_eq_zero_iff] at h
          subst h
          have := hfst m (by simp)
          omega
        have hbl : (ofMeas ([] : List (Meas V))).ts.length = 0 ∧ t0 < m.1 := ⟨rfl, hgt⟩
        have res : ∀ y : Except Fault (Imu V × Nat), (if m.1 < t0 then y
            else if (ofMeas ([] : List (Meas V))).ts.length = 0 ∧ t0 < m.1 then
              if pre.length = 0 then .error .oob else .error .uninit else y) = .error .uninit := by
          intro y; rw [if_neg hlt, if_pos hbl, if_neg hpn]
        refine ⟨?_, fun _ _ => ?_, fun _ _ => ?_⟩
        · rintro ⟨x, hx, hxt⟩
          rcases List.mem_cons.mp hx with rfl | hx
          · omega
          · have := hms x hx; omega
        · show (if m.1 < t0 then _ else if _ then _ else _) = _
          rw [if_neg hlt, if_pos hbl, if_neg hpn]
        · show (if m.1 < t0 then _ else if _ then _ else _) = _
          rw [if_neg hlt, if_pos hbl, if_neg hpn]
      · have he : m.1 = t0 := by omega
        have hbl : ¬ ((ofMeas ([] : List (Meas V))).ts.length = 0 ∧ t0 < m.1) := fun h => hgt h.2
        have hle : ¬ t1 < m.1 := by omega
        have ph := extract_phase2 t0 t1 (pre ++ [m]) suf (by rw [← e]; exact hinc)
          (fun x hx => by have := hms x hx; omega) [m] (by simp) pre.length (by simp)
        refine ⟨fun h1 h2 => ?_, fun h1 h2 => absurd he (h1 m (by simp)), fun h1 h2 => ?_⟩
        · show (if m.1 < t0 then _ else if _ then _ else if _ then _ else if _ then _ else _) = _
          rw [if_neg hlt, if_neg hbl, if_neg hle, ofMeas_add]
          by_cases h1 : m.1 = t1
          · rw [if_pos h1, if_pos (by omega : t0 = t1)]
            have f1 : (m :: suf).filter (fun m => decide (t0 ≤ m.1 ∧ m.1 ≤ t1)) = [m] := by
              rw [List.filter_cons_of_pos (by simp; omega), List.filter_eq_nil_iff.mpr]
              intro x hx; have := hms x hx; simp; omega
            rw [f1]; rfl
          · rw [if_neg h1, if_neg (by omega : ¬ t0 = t1), e, el, List.nil_append]
            have hex' : ∃ x ∈ suf, x.1 = t1 := by
              obtain ⟨x, hx, hxt⟩ := h2
              rcases List.mem_cons.mp hx with rfl | hx
              · exact absurd hxt h1
              · exact ⟨x, hx, hxt⟩
            rw [ph.1 hex']
            have f1 : (m :: suf).filter (fun m => decide (t0 ≤ m.1 ∧ m.1 ≤ t1)) =
                m :: suf.filter (fun m => decide (m.1 ≤ t1)) := by
              rw [List.filter_cons_of_pos (by simp; omega)]
              congr 1
              refine List.filter_congr (fun x hx => ?_)
              have := hms x hx
              simp; omega
            have f2 : (m :: suf).filter (fun m => decide (m.1 < t1)) =
                m :: suf.filter (fun m => decide (m.1 < t1)) :=
              List.filter_cons_of_pos (by simp; omega)
            rw [f1, f2]
            simp only [List.length_cons, List.length_append, List.length_nil, List.singleton_append]
            congr 2
            split_ifs with h
            · rw [h]; simp
            · omega
        · show (if m.1 < t0 then _ else if _ then _ else if _ then _ else if _ then _ else _) = _
          rw [if_neg hlt, if_neg hbl, if_neg hle, ofMeas_add, if_neg (h1 m (by simp)), e, el,
            List.nil_append]
          refine ph.2 (fun x hx => h1 x (by simp [hx])) ?_
          obtain ⟨x, hx, hxt⟩ := h2
          rcases List.mem_cons.mp hx with rfl | hx
          · exact absurd hxt hle
          · exact ⟨x, hx, hxt⟩

/-- For an increasing list, dropping all but one of the elements before `t`. -/
theorem drop_before (t : Int) (l : List (Meas V)) (hinc : Increasing l)
    (hne : l.filter (fun m => decide (m.1 < t)) ≠ []) :
    l.drop ((l.filter (fun m => decide (m.1 < t))).length - 1) =
      (l.filter (fun m => decide (m.1 < t))).getLast?.toList ++ l.filter (fun m => decide (t ≤ m.1)) := by
  induction l with
  | nil => simp at hne
  | cons m l ih =>
    have hms := (List.pairwise_cons.mp hinc).1
    by_cases hm : m.1 < t
    · have f1 : (m :: l).filter (fun m => decide (m.1 < t)) = m :: l.filter (fun m => decide (m.1 < t)) :=
        List.filter_cons_of_pos (by simpa using hm)
      have f2 : (m :: l).filter (fun m => decide (t ≤ m.1)) = l.filter (fun m => decide (t ≤ m.1)) :=
        List.filter_cons_of_neg (by simpa using hm)
      rw [f1, f2]
      by_cases hl : l.filter (fun m => decide (m.1 < t)) = []
      · rw [hl]
        have : l.filter (fun m => decide (t ≤ m.1)) = l := by
          rw [List.filter_eq_self]
          intro x hx
          have := List.filter_eq_nil_iff.mp hl x hx
          simpa using this
        simp [this]
      · have := ih (List.pairwise_cons.mp hinc).2 hl
        obtain ⟨y, ys, hy⟩ := List.exists_cons_of_ne_nil hl
        rw [hy] at this ⊢
        simp only [List.length_cons, Nat.add_sub_cancel] at this ⊢
        rw [List.getLast?_cons_cons, ← this, List.drop_succ_cons]
    · exfalso
      apply hne
      rw [List.filter_eq_nil_iff]
      intro x hx
      rcases List.mem_cons.mp hx with rfl | hx
      · simpa using hm
      · have := hms x hx; simp; omega

theorem ofMeas_drop (l : List (Meas V)) (n : Nat) :
    (⟨(ofMeas l).ts.drop n, (ofMeas l).acc.drop n, (ofMeas l).gyr.drop n⟩ : Imu V) =
      ofMeas (l.drop n) := by
  simp [ofMeas, List.map_drop]

/-- **C24, when both end points are measured.**  `extract` returns exactly the measurements
between `t0` and `t1`, and leaves in the buffer the last measurement before `t1` and everything
from `t1` on (the whole buffer when `t0 = t1`). -/
theorem C24_extract_partial (l : List (Meas V)) (t0 t1 : Int) (hinc : Increasing l) (h01 : t0 ≤ t1)
    (h0 : ∃ m ∈ l, m.1 = t0) (h1 : ∃ m ∈ l, m.1 = t1) :
    (ofMeas l).extract t0 t1 =
      .ok (ofMeas (l.filter (fun m => decide (t0 ≤ m.1 ∧ m.1 ≤ t1))), ofMeas (leftover t0 t1 l)) := by
  have hbnd : ∀ t, (∃ m ∈ l, m.1 = t) → (∀ m ∈ l.head?, m.1 ≤ t) ∧ (∀ m ∈ l.getLast?, t ≤ m.1) := by
    rintro _ ⟨m, hm, rfl⟩
    constructor
    · intro x hx
      cases l with
      | nil => simp at hm
      | cons y ys =>
        simp only [List.head?_cons, Option.mem_def, Option.some.injEq] at hx
        subst hx
        rcases List.mem_cons.mp hm with rfl | hm
        · exact le_refl _
        · exact le_of_lt ((List.pairwise_cons.mp hinc).1 m hm)
    · intro x hx
      rcases List.eq_nil_or_concat l with rfl | ⟨p, y, rfl⟩
      · simp at hm
      · simp only [List.concat_eq_append, List.getLast?_append_cons] at hx hm hinc
        simp only [List.getLast?_singleton, Option.mem_def, Option.some.injEq] at hx
        subst hx
        rcases List.mem_append.mp hm with hm | hm
        · exact le_of_lt ((List.pairwise_append.mp hinc).2.2 m hm y (by simp))
        · simp only [List.mem_singleton] at hm; rw [hm]
  have hl : l ≠ [] := by obtain ⟨m, hm, _⟩ := h0; exact List.ne_nil_of_mem hm
  have hp1 := (extract_phase1 t0 t1 h01 [] l (by simpa using hinc) (by simp)
    (by simpa using (hbnd t0 h0).1)).1 h0 h1
  simp only [List.nil_append, List.length_nil, Nat.zero_add] at hp1
  unfold Imu.extract
  have hhead : (ofMeas l).ts.head? = some (l.head hl).1 := by
    simp [ofMeas, List.head?_map, List.head?_eq_some_head hl]
  have hlast : (ofMeas l).ts.getLast? = some (l.getLast hl).1 := by
    simp [ofMeas, List.getLast?_map, List.getLast?_eq_some_getLast hl]
  rw [hhead, hlast]
  have c1 : ¬ t0 < (l.head hl).1 := not_lt.mpr ((hbnd t0 h0).1 _ (by simp [List.head?_eq_some_head hl]))
  have c2 : ¬ (l.getLast hl).1 < t1 :=
    not_lt.mpr ((hbnd t1 h1).2 _ (by simp [List.getLast?_eq_some_getLast hl]))
  simp only [if_neg c1, if_neg c2]
  have hr : List.range (ofMeas l).ts.length = List.range' 0 l.length := by
    simp [ofMeas, List.range_eq_range']
  have he : ({} : Imu V) = ofMeas [] := rfl
  rw [hr, he, hp1]
  show Except.ok _ = _
  rw [ofMeas_drop]
  congr 3
  unfold leftover
  split_ifs with h
  · simp
  · refine drop_before t1 l hinc ?_
    obtain ⟨m, hm, hmt⟩ := h0
    exact List.ne_nil_of_mem (List.mem_filter.mpr ⟨hm, by simp; omega⟩)

/-- **C24 refuted.**  For an interval inside the buffer, if either end point is not exactly the
timestamp of a measurement, `extract` reads an uninitialised vector: the interpolated end points
are never computed. -/
theorem C24_extract_refuted (l : List (Meas V)) (t0 t1 : Int) (hinc : Increasing l) (h01 : t0 ≤ t1)
    (hf : ∃ m ∈ l.head?, m.1 ≤ t0) (hl : ∃ m ∈ l.getLast?, t1 ≤ m.1)
    (hno : (∀ m ∈ l, m.1 ≠ t0) ∨ (∀ m ∈ l, m.1 ≠ t1)) :
    (ofMeas l).extract t0 t1 = .error .uninit := by
  obtain ⟨f, hfm, hft⟩ := hf
  obtain ⟨e, hem, het⟩ := hl
  have hel : e ∈ l := List.mem_of_getLast? hem
  have hp1 := (extract_phase1 t0 t1 h01 [] l (by simpa using hinc) (by simp)
    (by intro x hx; rw [List.nil_append] at hx; rw [hfm] at hx; cases hx; exact hft)).2
  simp only [List.nil_append, List.length_nil] at hp1
  have hloop : extractLoop (ofMeas l) t0 t1 (List.range' 0 l.length) (ofMeas []) 0 =
      .error .uninit := by
    rcases hno with hno | hno
    · refine hp1.1 hno ⟨e, hel, ?_⟩
      have := hno e hel; omega
    · refine hp1.2 hno ⟨e, hel, ?_⟩
      have := hno e hel; omega
  unfold Imu.extract
  have hhead : (ofMeas l).ts.head? = some f.1 := by
    simp only [ofMeas, List.head?_map]; rw [hfm]; rfl
  have hlast : (ofMeas l).ts.getLast? = some e.1 := by
    simp only [ofMeas, List.getLast?_map]; rw [hem]; rfl
  rw [hhead, hlast]
  simp only [if_neg (not_lt.mpr hft), if_neg (not_lt.mpr het)]
  have hr : List.range (ofMeas l).ts.length = List.range' 0 l.length := by
    simp [ofMeas, List.range_eq_range']
  have he : ({} : Imu V) = ofMeas [] := rfl
  rw [hr, he, hloop]
  rfl

/-- An interval not covered by the buffer trips the assertions. -/
theorem C24_extract_range (l : List (Meas V)) (t0 t1 : Int) (f e : Meas V)
    (hf : l.head? = some f) (he : l.getLast? = some e) (h : t0 < f.1 ∨ e.1 < t1) :
    (ofMeas l).extract t0 t1 = .error .fatal := by
  unfold Imu.extract
  have hhead : (ofMeas l).ts.head? = some f.1 := by
    simp only [ofMeas, List.head?_map]; rw [hf]; rfl
  have hlast : (ofMeas l).ts.getLast? = some e.1 := by
    simp only [ofMeas, List.getLast?_map]; rw [he]; rfl
  rw [hhead, hlast]
  show (if _ then _ else if _ then _ else _) = _
  by_cases h1 : t0 < f.1
  · rw [if_pos h1]
  · rw [if_neg h1, if_pos (h.resolve_left h1)]

/-- **C23 / C24 (bookkeeping).**  Buffers built by `add` from the empty buffer are exactly the
aligned ones; `size`, `last_ts`, `time_span` and `clear` report what was added. -/
theorem C23_add (l : List (Meas V)) (m : Meas V) :
    (ofMeas l).add m.1 m.2.1 m.2.2 = ofMeas (l ++ [m]) ∧ (ofMeas l).size = l.length ∧
    (ofMeas (l ++ [m])).lastTs = .ok m.1 ∧ (ofMeas l).clear = ofMeas [] ∧
    (∀ f, (ofMeas (f :: l ++ [m])).timeSpan = .ok (m.1 - f.1)) ∧
    l.foldl (fun b m => b.add m.1 m.2.1 m.2.2) ({} : Imu V) = ofMeas l := by
  refine ⟨ofMeas_add l m, by simp [ofMeas, Imu.size], by simp [ofMeas, Imu.lastTs], rfl,
    fun f => ?_, ?_⟩
  · have : (ofMeas (f :: l ++ [m])).ts.getLast? = some m.1 := by
      simp only [ofMeas, List.map_append, List.map_cons, List.map_nil, List.getLast?_append_cons,
        List.getLast?_singleton]
    unfold Imu.timeSpan
    rw [this]
    rfl
  induction l using List.reverseRecOn with
  | nil => rfl
  | append_singleton l m ih => rw [List.foldl_append, ih]; exact ofMeas_add l m

example : (ofMeas [((1 : Int), (1 : Int), (1 : Int)), (2, 2, 2), (3, 3, 3), (5, 4, 4)]).extract 2 3 =
    .ok (ofMeas [(2, 2, 2), (3, 3, 3)], ofMeas [(2, 2, 2), (3, 3, 3), (5, 4, 4)]) := by decide
example : (ofMeas [((1 : Int), (1 : Int), (1 : Int)), (2, 2, 2), (3, 3, 3), (5, 4, 4)]).extract 2 4 =
    .error .uninit := by decide

end Yac.Stream
