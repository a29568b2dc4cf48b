import Verif.Tool.InfoModel
import Verif.VI.LoadProps
import Mathlib.Data.List.Induction

/-! # Lemmas for C134 -/

namespace Yac.Tool

variable {S X K : Type}

/-- The states a loop goes through. -/
def runOf (g : S → X → Except Fault (S × Option (K × K))) (s : S) (l : List X) : Except Fault S :=
  l.foldlM (fun s x => g s x >>= fun r => .ok r.1) s

def stepOf (g : S → X → Except Fault (S × Option (K × K))) (key : X → ℤ) (acc : S × Maps K) (x : X) :
    Except Fault (S × Maps K) :=
  g acc.1 x >>= fun r => .ok (r.1, acc.2.put (key x) r.2)

/-- The value that is noted last for a key. -/
def Entry (g : S → X → Except Fault (S × Option (K × K))) (key : X → ℤ) (s : S) (l : List X) (ts : ℤ) (ie : K × K) : Prop :=
  ∃ pre x post u v, l = pre ++ x :: post ∧ key x = ts ∧ runOf g s pre = .ok u ∧ g u x = .ok (v, some ie) ∧
    ∀ a y b w r, post = a ++ y :: b → key y = ts → runOf g s (pre ++ x :: a) = .ok w → g w y = .ok r → r.2 = none

theorem runOf_concat (g : S → X → Except Fault (S × Option (K × K))) (s : S) (l : List X) (x : X) :
    runOf g s (l ++ [x]) = runOf g s l >>= fun u => g u x >>= fun r => .ok r.1 := by
  unfold runOf
  rw [List.foldlM_append]
  cases l.foldlM (fun s x => g s x >>= fun r => .ok r.1) s with
  | error e => rfl
  | ok u => simp [List.foldlM_cons, List.foldlM_nil]

theorem entry_concat {g : S → X → Except Fault (S × Option (K × K))} {key : X → ℤ} {s t : S} {l : List X} {x : X}
    {r : S × Option (K × K)} (hl : runOf g s l = .ok t) (hx : g t x = .ok r) (ts : ℤ) (ie : K × K) :
    Entry g key s (l ++ [x]) ts ie ↔
      (key x = ts ∧ r.2 = some ie) ∨ (¬ (key x = ts ∧ r.2 ≠ none) ∧ Entry g key s l ts ie) := by
  constructor
  · rintro ⟨pre, y, post, u, v, h1, h2, h3, h4, h5⟩
    rcases List.eq_nil_or_concat post with rfl | ⟨post', z, rfl⟩
    · obtain ⟨e1, e2⟩ := List.append_inj' h1 rfl
      subst e1
      cases e2
      rw [hl] at h3
      cases h3
      rw [hx] at h4
      cases h4
      exact Or.inl ⟨h2, rfl⟩
    · have h1' : l ++ [x] = (pre ++ y :: post') ++ [z] := by rw [h1]; simp
      obtain ⟨e1, e2⟩ := List.append_inj' h1' rfl
      cases e2
      refine Or.inr ⟨?_, pre, y, post', u, v, e1, h2, h3, h4, ?_⟩
      · rintro ⟨k, hne⟩
        exact hne (h5 post' x [] t r (by simp) k (e1 ▸ hl) hx)
      · intro a z b w r' e k hw hr
        exact h5 a z (b ++ [x]) w r' (by rw [e]; simp) k hw hr
  · rintro (⟨k, hr⟩ | ⟨hk, pre, y, post, u, v, h1, h2, h3, h4, h5⟩)
    · refine ⟨l, x, [], t, r.1, rfl, k, hl, by rw [hx, ← hr], ?_⟩
      intro a y b w r' e
      simp at e
    · refine ⟨pre, y, post ++ [x], u, v, by rw [h1]; simp, h2, h3, h4, ?_⟩
      intro a z b w r' e k hw hr
      rcases List.eq_nil_or_concat b with rfl | ⟨b', z', rfl⟩
      · obtain ⟨e1, e2⟩ := List.append_inj' e rfl
        cases e2
        subst e1
        rw [← h1, hl] at hw
        cases hw
        rw [hx] at hr
        cases hr
        by_contra hne
        exact hk ⟨k, hne⟩
      · have e' : post ++ [x] = (a ++ z :: b') ++ [z'] := by rw [e]; simp
        obtain ⟨e1, -⟩ := List.append_inj' e' rfl
        exact h5 a z b' w r' e1 k hw hr

theorem set_keys {κ α β : Type} [LinearOrder κ] (k : κ) (a : α) (b : β) : ∀ (m : List (κ × α)) (n : List (κ × β)),
    m.map Prod.fst = n.map Prod.fst → (SMap.set k a m).map Prod.fst = (SMap.set k b n).map Prod.fst
  | [], [], _ => rfl
  | [], _ :: _, h => by simp at h
  | _ :: _, [], h => by simp at h
  | (p, v) :: m, (q, w) :: n, h => by
    simp only [List.map_cons, List.cons.injEq] at h
    obtain ⟨rfl, h⟩ := h
    simp only [SMap.set]
    split_ifs
    · simp [h]
    · simp [set_keys k a b m n h]
    · simp [h]

/-- What is noted: for every key the last value. -/
theorem fold_put (g : S → X → Except Fault (S × Option (K × K))) (key : X → ℤ) (s : S) (l : List X) :
    (∀ t m, l.foldlM (stepOf g key) (s, (⟨[], []⟩ : Maps K)) = .ok (t, m) →
      runOf g s l = .ok t ∧ SMap.Sorted m.info ∧ m.info.map Prod.fst = m.entropy.map Prod.fst ∧
      ∀ ts i e, (SMap.find ts m.info = some i ∧ SMap.find ts m.entropy = some e) ↔ Entry g key s l ts (i, e)) ∧
    (∀ t, runOf g s l = .ok t → ∃ m, l.foldlM (stepOf g key) (s, (⟨[], []⟩ : Maps K)) = .ok (t, m)) := by
  induction l using List.reverseRecOn with
  | nil =>
    refine ⟨?_, ?_⟩
    · intro t m h
      cases h
      refine ⟨rfl, List.Pairwise.nil, rfl, ?_⟩
      intro ts i e
      refine ⟨fun h => by simp [SMap.find] at h, ?_⟩
      rintro ⟨pre, x, post, u, v, h, -⟩
      simp at h
    · intro t h
      cases h
      exact ⟨_, rfl⟩
  | append_singleton l x ih =>
    obtain ⟨ih1, ih2⟩ := ih
    have hfold : (l ++ [x]).foldlM (stepOf g key) (s, (⟨[], []⟩ : Maps K)) =
        l.foldlM (stepOf g key) (s, (⟨[], []⟩ : Maps K)) >>= fun acc => stepOf g key acc x := by
      rw [List.foldlM_append]
      cases l.foldlM (stepOf g key) (s, (⟨[], []⟩ : Maps K)) with
      | error e => rfl
      | ok u =>
        show (stepOf g key u x >>= fun v => pure v) = stepOf g key u x
        cases stepOf g key u x <;> rfl
    refine ⟨?_, ?_⟩
    · intro t m h
      rw [hfold] at h
      cases h0 : l.foldlM (stepOf g key) (s, (⟨[], []⟩ : Maps K)) with
      | error e => rw [h0] at h; cases h
      | ok acc =>
        obtain ⟨u, n⟩ := acc
        rw [h0] at h
        obtain ⟨a1, a2, a3, a4⟩ := ih1 u n h0
        change g u x >>= _ = _ at h
        cases hx : g u x with
        | error e => rw [hx] at h; cases h
        | ok r =>
          rw [hx] at h
          cases h
          refine ⟨by rw [runOf_concat, a1]; show g u x >>= _ = _; rw [hx]; rfl, ?_, ?_, ?_⟩
          · cases hr : r.2 with
            | none => exact a2
            | some ie => exact SMap.set_sorted _ _ _ a2
          · cases hr : r.2 with
            | none => exact a3
            | some ie => exact set_keys _ _ _ _ _ a3
          · intro ts i e
            rw [entry_concat a1 hx, ← a4]
            cases hr : r.2 with
            | none => simp [Maps.put]
            | some ie =>
              obtain ⟨i', e'⟩ := ie
              simp only [Maps.put, SMap.find_set]
              by_cases k : key x = ts
              · subst k
                simp
              · simp [k, Ne.symm k]
    · intro t h
      rw [runOf_concat] at h
      cases h0 : runOf g s l with
      | error e => rw [h0] at h; cases h
      | ok u =>
        rw [h0] at h
        change g u x >>= _ = _ at h
        cases hx : g u x with
        | error e => rw [hx] at h; cases h
        | ok r =>
          rw [hx] at h
          cases h
          obtain ⟨m, hm⟩ := ih2 u h0
          refine ⟨m.put (key x) r.2, ?_⟩
          rw [hfold, hm]
          show g u x >>= _ = _
          rw [hx]
          rfl

/-- Lists ordered by key with the same elements of every key are the same. -/
theorem eq_of_filters {α : Type} : ∀ (l m : List (ℤ × α)), l.Pairwise (fun a b => a.1 ≤ b.1) → m.Pairwise (fun a b => a.1 ≤ b.1) →
    (∀ k : ℤ, l.filter (fun p => decide (p.1 = k)) = m.filter (fun p => decide (p.1 = k))) → l = m
  | [], [], _, _, _ => rfl
  | [], b :: m, _, _, h => by have := h b.1; simp at this
  | a :: l, [], _, _, h => by have := h a.1; simp at this
  | a :: l, b :: m, hl, hm, h => by
    have hl' := List.pairwise_cons.1 hl
    have hm' := List.pairwise_cons.1 hm
    have ha : a ∈ b :: m := by
      have : a ∈ (b :: m).filter (fun p => decide (p.1 = a.1)) := by rw [← h]; simp
      exact (List.mem_filter.1 this).1
    have hb : b ∈ a :: l := by
      have : b ∈ (a :: l).filter (fun p => decide (p.1 = b.1)) := by rw [h]; simp
      exact (List.mem_filter.1 this).1
    have h1 : b.1 ≤ a.1 := by
      rcases List.mem_cons.1 ha with e | e
      · rw [e]
      · exact hm'.1 a e
    have h2 : a.1 ≤ b.1 := by
      rcases List.mem_cons.1 hb with e | e
      · rw [e]
      · exact hl'.1 b e
    have hk : a.1 = b.1 := le_antisymm h2 h1
    have hh := h a.1
    rw [List.filter_cons_of_pos (by simp), List.filter_cons_of_pos (by simp [hk])] at hh
    have hab : a = b := (List.cons.inj hh).1
    subst hab
    rw [eq_of_filters l m hl'.2 hm'.2 ?_]
    intro k
    have := h k
    by_cases e : a.1 = k
    · rw [List.filter_cons_of_pos (by simp [e]), List.filter_cons_of_pos (by simp [e])] at this
      exact (List.cons.inj this).2
    · rw [List.filter_cons_of_neg (by simp [e]), List.filter_cons_of_neg (by simp [e])] at this
      exact this

end Yac.Tool
