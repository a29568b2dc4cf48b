import Verif.Nbt.EvalModel
import Verif.VI.LoadProps

/-!
Lemmas for C133.
-/

namespace Yac.Nbt

open Yac.AprilGrid (Grid)
open Yac.VI (St VEnv Ev feed frame tg GridsOk WF EqLen withBuf)

/-! ### Replaying a timeline -/

/-- Two lists in ascending order of keys that agree on the items of each key are equal. -/
theorem sorted_unique {α : Type} : ∀ (l l' : List (ℤ × α)), l.Pairwise (fun a b => a.1 ≤ b.1) →
    l'.Pairwise (fun a b => a.1 ≤ b.1) →
    (∀ t, l.filter (fun p => decide (p.1 = t)) = l'.filter (fun p => decide (p.1 = t))) → l = l'
  | [], l', _, _, h => by
    cases l' with
    | nil => rfl
    | cons b l' => have := h b.1; simp at this
  | a :: l, [], _, _, h => by have := h a.1; simp at this
  | a :: l, b :: l', h1, h2, h => by
    obtain ⟨a1, a2⟩ := List.pairwise_cons.1 h1
    obtain ⟨b1, b2⟩ := List.pairwise_cons.1 h2
    have hmem : ∀ x, x ∈ a :: l ↔ x ∈ b :: l' := by
      intro x
      have hx : ∀ L : List (ℤ × α), x ∈ L ↔ x ∈ L.filter (fun p => decide (p.1 = x.1)) := by
        intro L; simp
      rw [hx, h, ← hx]
    have hle : b.1 ≤ a.1 := by
      rcases List.mem_cons.1 ((hmem a).1 (by simp)) with e | e
      · rw [e]
      · exact b1 a e
    have hge : a.1 ≤ b.1 := by
      rcases List.mem_cons.1 ((hmem b).2 (by simp)) with e | e
      · rw [e]
      · exact a1 b e
    have hk : a.1 = b.1 := le_antisymm hge hle
    have hab := h a.1
    rw [List.filter_cons, List.filter_cons, if_pos (by simp), if_pos (by simp [hk])] at hab
    injection hab with e1 e2
    subst e1
    rw [sorted_unique l l' a2 b2]
    intro t
    have := h t
    rw [List.filter_cons, List.filter_cons] at this
    split_ifs at this
    · injection this
    · exact this

/-- Going through a timeline is going through its entries in the order of time, entries of the same
time in the order in which they were added. -/
theorem timeline_fold {S E : Type} (f : S → ℤ → E → Except Fault S) (es l : List (ℤ × E))
    (hl : l.Pairwise (fun a b => a.1 ≤ b.1))
    (hf : ∀ t, l.filter (fun p => decide (p.1 = t)) = es.filter (fun p => decide (p.1 = t))) (s : S) :
    (Timeline.run es).timestamps.foldlM (fun s ts => (Timeline.getEvents (Timeline.run es) ts).foldlM
      (fun s e => f s ts e) s) s = l.foldlM (fun s p => f s p.1 p.2) s := by
  obtain ⟨h1, h2, h3, h4⟩ := Timeline.run_inv es
  have hr : ∀ t, Timeline.equalRange (Timeline.run es) t = es.filter (fun p => decide (p.1 = t)) := by
    intro t
    rw [Timeline.equalRange, Timeline.range_filter _ _ h1, h4]
  have key : ∀ (T : List Int) (s : S), T.foldlM (fun s ts => (Timeline.getEvents (Timeline.run es) ts).foldlM
      (fun s e => f s ts e) s) s =
      (T.flatMap (Timeline.equalRange (Timeline.run es))).foldlM (fun s p => f s p.1 p.2) s := by
    intro T
    induction T with
    | nil => intro s; rfl
    | cons t T ih =>
      intro s
      rw [List.foldlM_cons, List.flatMap_cons, List.foldlM_append]
      have e : (Timeline.getEvents (Timeline.run es) t).foldlM (fun s e => f s t e) s =
          (Timeline.equalRange (Timeline.run es) t).foldlM (fun s p => f s p.1 p.2) s := by
        unfold Timeline.getEvents
        have hk : ∀ p ∈ Timeline.equalRange (Timeline.run es) t, p.1 = t := by
          intro p hp
          rw [hr] at hp
          simpa using (List.mem_filter.1 hp).2
        generalize Timeline.equalRange (Timeline.run es) t = L at hk
        induction L generalizing s with
        | nil => rfl
        | cons p L ihL =>
          rw [List.map_cons, List.foldlM_cons, List.foldlM_cons, hk p (by simp)]
          cases f s t p.2 with
          | error _ => rfl
          | ok u => exact ihL u (fun q hq => hk q (by simp [hq]))
      rw [e]
      cases (Timeline.equalRange (Timeline.run es) t).foldlM (fun s p => f s p.1 p.2) s with
      | error _ => rfl
      | ok u => exact ih u
  have hfl : ∀ ts, ((Timeline.run es).timestamps.flatMap (Timeline.equalRange (Timeline.run es))).filter
      (fun p => decide (p.1 = ts)) = es.filter (fun p => decide (p.1 = ts)) := by
    intro ts
    have hgen : ∀ T : List Int, T.Nodup →
        (T.flatMap (Timeline.equalRange (Timeline.run es))).filter (fun p => decide (p.1 = ts)) =
          if ts ∈ T then es.filter (fun p => decide (p.1 = ts)) else [] := by
      intro T
      induction T with
      | nil => intro _; rfl
      | cons t T ih =>
        intro hn
        obtain ⟨n1, n2⟩ := List.nodup_cons.1 hn
        rw [List.flatMap_cons, List.filter_append, ih n2, hr, List.filter_filter]
        by_cases ht : t = ts
        · subst ht
          rw [if_neg n1, if_pos (by simp), List.append_nil]
          refine List.filter_congr (fun p _ => ?_)
          simp
        · have : es.filter (fun a => decide (a.1 = ts) && decide (a.1 = t)) = [] := by
            rw [List.filter_eq_nil_iff]
            intro a _ hh
            simp only [Bool.and_eq_true, decide_eq_true_eq] at hh
            exact ht (hh.2.symm.trans hh.1)
          rw [this, List.nil_append]
          simp [Ne.symm ht]
    rw [hgen _ (h2.imp (fun h => ne_of_lt h))]
    by_cases hm : ts ∈ (Timeline.run es).timestamps
    · rw [if_pos hm]
    · rw [if_neg hm]
      symm
      rw [List.filter_eq_nil_iff]
      intro p hp hh
      rw [decide_eq_true_eq] at hh
      exact hm ((h3 ts).2 (List.mem_map.2 ⟨p, hp, hh⟩))
  have hsort : ((Timeline.run es).timestamps.flatMap (Timeline.equalRange (Timeline.run es))).Pairwise
      (fun a b => a.1 ≤ b.1) := by
    rw [List.pairwise_flatMap]
    refine ⟨?_, ?_⟩
    · intro t _
      rw [hr]
      refine List.Pairwise.imp_of_mem (R := fun _ _ => True) ?_ (by simp [List.pairwise_iff_getElem])
      intro a b ha hb _
      have h1 := (List.mem_filter.1 ha).2
      have h2 := (List.mem_filter.1 hb).2
      rw [decide_eq_true_eq] at h1 h2
      omega
    · refine h2.imp ?_
      intro t u htu a ha b hb
      rw [hr] at ha hb
      have h1 := (List.mem_filter.1 ha).2
      have h2 := (List.mem_filter.1 hb).2
      rw [decide_eq_true_eq] at h1 h2
      omega
  rw [key, sorted_unique _ l hsort hl (fun t => by rw [hfl, hf])]

/-! ### The order of samples and frames -/

section
variable {K D : Type} [DecidableEq K]

def frameEvs (C : List ℤ) (shot : ℤ → ℤ → Grid K) (f : ℤ) : List (ℤ × Ev K D) :=
  C.map fun c => (f, .grid c (shot c f))

def imuEv (r : ℤ × D × D) : ℤ × Ev K D := (r.1, .imu r.1 r.2.1 r.2.2)

/-- Samples and frames in the order of time, the sample first. -/
def weave (C : List ℤ) (shot : ℤ → ℤ → Grid K) : List ℤ → List (ℤ × D × D) → List (ℤ × Ev K D)
  | F, [] => F.flatMap (frameEvs C shot)
  | [], r :: I => (r :: I).map imuEv
  | f :: F, r :: I =>
    if r.1 ≤ f then imuEv r :: weave C shot (f :: F) I
    else frameEvs C shot f ++ weave C shot F (r :: I)
termination_by F I => F.length + I.length

theorem weave_mem (C : List ℤ) (shot : ℤ → ℤ → Grid K) (F : List ℤ) (I : List (ℤ × D × D)) (p : ℤ × Ev K D)
    (h : p ∈ weave C shot F I) : p.1 ∈ F ∨ ∃ r ∈ I, p.1 = r.1 := by
  fun_induction weave C shot F I with
  | case1 F =>
    obtain ⟨f, hf, hp⟩ := List.mem_flatMap.1 h
    obtain ⟨c, _, rfl⟩ := List.mem_map.1 hp
    exact Or.inl hf
  | case2 r I =>
    obtain ⟨x, hx, rfl⟩ := List.mem_map.1 h
    exact Or.inr ⟨x, hx, rfl⟩
  | case3 f F r I hle ih =>
    rcases List.mem_cons.1 h with rfl | h
    · exact Or.inr ⟨r, by simp, rfl⟩
    · rcases ih h with h | ⟨x, hx, e⟩
      · exact Or.inl h
      · exact Or.inr ⟨x, by simp [hx], e⟩
  | case4 f F r I hle ih =>
    rcases List.mem_append.1 h with h | h
    · obtain ⟨c, _, rfl⟩ := List.mem_map.1 h
      exact Or.inl (by simp)
    · rcases ih h with h | h
      · exact Or.inl (by simp [h])
      · exact Or.inr h

theorem frameEvs_key (C : List ℤ) (shot : ℤ → ℤ → Grid K) (f : ℤ) (p : ℤ × Ev K D) (h : p ∈ frameEvs C shot f) :
    p.1 = f := by
  obtain ⟨c, _, rfl⟩ := List.mem_map.1 h
  rfl

theorem frameEvs_sorted (C : List ℤ) (shot : ℤ → ℤ → Grid K) (f : ℤ) :
    (frameEvs C shot f : List (ℤ × Ev K D)).Pairwise (fun a b => a.1 ≤ b.1) := by
  unfold frameEvs
  rw [List.pairwise_map]
  exact List.pairwise_of_forall (fun _ _ => le_refl _)

theorem weave_sorted (C : List ℤ) (shot : ℤ → ℤ → Grid K) (F : List ℤ) (I : List (ℤ × D × D))
    (hF : F.Pairwise (· < ·)) (hI : I.Pairwise (fun a b => a.1 < b.1)) :
    (weave C shot F I).Pairwise (fun a b => a.1 ≤ b.1) := by
  fun_induction weave C shot F I with
  | case1 F =>
    rw [List.pairwise_flatMap]
    refine ⟨fun f _ => frameEvs_sorted C shot f, hF.imp ?_⟩
    intro f f' hlt a ha b hb
    rw [frameEvs_key C shot f a ha, frameEvs_key C shot f' b hb]
    exact le_of_lt hlt
  | case2 r I =>
    rw [List.pairwise_map]
    exact hI.imp (fun h => le_of_lt h)
  | case3 f F r I hle ih =>
    obtain ⟨i1, i2⟩ := List.pairwise_cons.1 hI
    obtain ⟨f1, f2⟩ := List.pairwise_cons.1 hF
    refine List.pairwise_cons.2 ⟨?_, ih hF i2⟩
    intro p hp
    rcases weave_mem C shot _ _ p hp with h | ⟨x, hx, e⟩
    · rcases List.mem_cons.1 h with h | h
      · rw [h]; exact hle
      · have := f1 _ h
        show r.1 ≤ p.1
        omega
    · rw [e]; exact le_of_lt (i1 x hx)
  | case4 f F r I hle ih =>
    obtain ⟨i1, i2⟩ := List.pairwise_cons.1 hI
    obtain ⟨f1, f2⟩ := List.pairwise_cons.1 hF
    refine List.pairwise_append.2 ⟨frameEvs_sorted C shot f, ih f2 hI, ?_⟩
    intro a ha b hb
    rw [frameEvs_key C shot f a ha]
    rcases weave_mem C shot _ _ b hb with h | ⟨x, hx, e⟩
    · exact le_of_lt (f1 _ h)
    · rw [e]
      rcases List.mem_cons.1 hx with rfl | hx
      · omega
      · have := i1 x hx; omega

theorem weave_filter (C : List ℤ) (shot : ℤ → ℤ → Grid K) (F : List ℤ) (I : List (ℤ × D × D))
    (hI : I.Pairwise (fun a b => a.1 < b.1)) (t : ℤ) :
    (weave C shot F I).filter (fun p => decide (p.1 = t)) =
      (I.map imuEv ++ F.flatMap (frameEvs C shot)).filter (fun p => decide (p.1 = t)) := by
  fun_induction weave C shot F I with
  | case1 F => simp
  | case2 r I => simp
  | case3 f F r I hle ih =>
    rw [List.map_cons, List.cons_append, List.filter_cons, List.filter_cons, ih (List.pairwise_cons.1 hI).2]
  | case4 f F r I hle ih =>
    rw [List.filter_append, ih hI, List.filter_append, List.filter_append, List.flatMap_cons, List.filter_append]
    by_cases ht : f = t
    · have : ((r :: I).map imuEv : List (ℤ × Ev K D)).filter (fun p => decide (p.1 = t)) = [] := by
        rw [List.filter_eq_nil_iff]
        intro p hp hh
        obtain ⟨x, hx, rfl⟩ := List.mem_map.1 hp
        rw [decide_eq_true_eq] at hh
        have h1 : x.1 = t := hh
        rcases List.mem_cons.1 hx with rfl | hx
        · omega
        · have := (List.pairwise_cons.1 hI).1 x hx; omega
      rw [this]; simp
    · have : (frameEvs C shot f : List (ℤ × Ev K D)).filter (fun p => decide (p.1 = t)) = [] := by
        rw [List.filter_eq_nil_iff]
        intro p hp hh
        rw [decide_eq_true_eq, frameEvs_key C shot f p hp] at hh
        exact ht hh
      rw [this]; simp

/-! ### What is used -/

/-- What a sample makes of the frame that waits. -/
def emit (n : ℕ) : Option ℤ → List (ℕ × ℤ)
  | some p => if 2 ≤ n then [(n + 1, p)] else []
  | none => []

/-- The frames that become views, with the number of samples by then.  `n`: samples so far; `pend`:
the frame that waits for the next sample. -/
def useOf : List ℤ → List ℤ → ℕ → Option ℤ → List (ℕ × ℤ)
  | _, [], _, _ => []
  | [], _ :: I, n, pend => emit n pend ++ useOf [] I (n + 1) none
  | f :: F, r :: I, n, pend =>
    if r ≤ f then emit n pend ++ useOf (f :: F) I (n + 1) none
    else useOf F (r :: I) n (if 0 < n then some f else none)
termination_by F I => F.length + I.length

theorem useOf_nil (F : List ℤ) (n : ℕ) (pend : Option ℤ) : useOf F [] n pend = [] := by
  cases F <;> rw [useOf]

end
end Yac.Nbt
