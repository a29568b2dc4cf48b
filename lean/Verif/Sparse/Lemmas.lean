import Verif.Sparse.Model
import Mathlib.Algebra.BigOperators.Group.Finset.Sigma
import Mathlib.Data.List.Nodup

/-!
# Lemmas about the CHOLMOD converters
-/

namespace Yac.Sparse
open Yac.Solver (Mat)

theorem okb {α β : Type} (a : α) (f : α → Except Fault β) : (Except.ok a >>= f) = f a := rfl

/-- The entries of the first `c` columns. -/
def flat (L : ℕ → List (ℕ × ℝ)) (c : ℕ) : List (ℕ × ℝ) := (List.range c).flatMap L

theorem flat_succ (L : ℕ → List (ℕ × ℝ)) (c : ℕ) : flat L (c + 1) = flat L c ++ L c := by
  unfold flat; rw [List.range_succ, List.flatMap_append]; simp

theorem flat_len (L : ℕ → List (ℕ × ℝ)) (c : ℕ) : (flat L c).length = ∑ k ∈ Finset.range c, (L k).length := by
  induction c with
  | zero => rfl
  | succ c ih => rw [flat_succ, List.length_append, ih, Finset.sum_range_succ]

theorem flat_prefix (L : ℕ → List (ℕ × ℝ)) {c n : ℕ} (h : c < n) : ∃ t, flat L n = flat L c ++ L c ++ t := by
  obtain ⟨d, rfl⟩ : ∃ d, n = c + 1 + d := ⟨n - (c + 1), by omega⟩
  induction d with
  | zero => exact ⟨[], by rw [Nat.add_zero, flat_succ, List.append_nil]⟩
  | succ d ih =>
    obtain ⟨t, ht⟩ := ih (by omega)
    exact ⟨t ++ L (c + 1 + d), by rw [← Nat.add_assoc, flat_succ, ht, List.append_assoc]⟩

/-- `M` stores, column by column, the entries `L`. -/
structure Holds (M : CSC) (L : ℕ → List (ℕ × ℝ)) : Prop where
  p : M.p = (List.range (M.ncol + 1)).map (fun c => (flat L c).length)
  i : M.i = (flat L M.ncol).map Prod.fst
  x : M.x = (flat L M.ncol).map Prod.snd

theorem Holds.start {M : CSC} {L : ℕ → List (ℕ × ℝ)} (h : Holds M L) {c : ℕ} (hc : c ≤ M.ncol) :
    M.p[c]? = some (flat L c).length := by
  rw [h.p, List.getElem?_map, List.getElem?_range (by omega)]; rfl

theorem Holds.get {M : CSC} {L : ℕ → List (ℕ × ℝ)} (h : Holds M L) {c : ℕ} (hc : c < M.ncol) (k : ℕ) (hk : k < (L c).length) :
    M.i[(flat L c).length + k]? = some (L c)[k].1 ∧ M.x[(flat L c).length + k]? = some (L c)[k].2 := by
  obtain ⟨t, ht⟩ := flat_prefix L hc
  have e : (flat L M.ncol)[(flat L c).length + k]? = some (L c)[k] := by
    rw [ht, List.append_assoc, List.getElem?_append_right (by omega), Nat.add_sub_cancel_left,
      List.getElem?_append_left hk, List.getElem?_eq_getElem hk]
  rw [h.i, h.x, List.getElem?_map, List.getElem?_map, e]
  exact ⟨rfl, rfl⟩

/-! ### Filling -/

theorem setAt_mid {α : Type} (pre : List α) (t : α) (ts : List α) (v : α) :
    setAt (pre ++ t :: ts) pre.length v = .ok (pre ++ v :: ts) := by
  unfold setAt
  rw [if_pos (by simp), List.set_append_right _ _ (le_refl _), Nat.sub_self]
  rfl

open Classical in
/-- The entries of column `c` that are stored. -/
noncomputable def sel (eps : ℝ) (A : Mat ℝ) (c : ℕ) (rs : List ℕ) : List (ℕ × ℝ) :=
  (rs.filter (fun r => |A r c| > eps)).map (fun r => (r, A r c))

theorem sel_cons_pos {eps : ℝ} {A : Mat ℝ} {c r : ℕ} (rs : List ℕ) (h : |A r c| > eps) :
    sel eps A c (r :: rs) = (r, A r c) :: sel eps A c rs := by
  unfold sel; rw [List.filter_cons_of_pos (by simpa using h), List.map_cons]

theorem sel_cons_neg {eps : ℝ} {A : Mat ℝ} {c r : ℕ} (rs : List ℕ) (h : ¬ |A r c| > eps) :
    sel eps A c (r :: rs) = sel eps A c rs := by
  unfold sel; rw [List.filter_cons_of_neg (by simpa using h)]

theorem fill_rows (eps : ℝ) (A : Mat ℝ) (c : ℕ) (rs : List ℕ) :
    ∀ (pre : List (ℕ × ℝ)) (tx : List ℝ) (ti : List ℕ), (sel eps A c rs).length ≤ tx.length →
      (sel eps A c rs).length ≤ ti.length →
    rs.foldlM (fillEntry eps A c) ⟨pre.map Prod.snd ++ tx, pre.map Prod.fst ++ ti, pre.length⟩ =
    .ok ⟨(pre ++ sel eps A c rs).map Prod.snd ++ tx.drop (sel eps A c rs).length,
      (pre ++ sel eps A c rs).map Prod.fst ++ ti.drop (sel eps A c rs).length, (pre ++ sel eps A c rs).length⟩ := by
  induction rs with
  | nil => intro pre tx ti _ _; simp [sel]; rfl
  | cons r rs ih =>
    intro pre tx ti h1 h2
    by_cases h : |A r c| > eps
    · rw [sel_cons_pos rs h] at h1 h2 ⊢
      cases tx with
      | nil => simp at h1
      | cons t tx =>
        cases ti with
        | nil => simp at h2
        | cons t' ti =>
          have e : fillEntry eps A c ⟨pre.map Prod.snd ++ t :: tx, pre.map Prod.fst ++ t' :: ti, pre.length⟩ r =
              .ok ⟨(pre ++ [(r, A r c)]).map Prod.snd ++ tx, (pre ++ [(r, A r c)]).map Prod.fst ++ ti,
                (pre ++ [(r, A r c)]).length⟩ := by
            unfold fillEntry
            rw [if_pos h]
            have a := setAt_mid (pre.map Prod.snd) t tx (A r c)
            have b := setAt_mid (pre.map Prod.fst) t' ti r
            rw [List.length_map] at a b
            simp only [a, b]
            simp [bind, Except.bind]
          rw [List.foldlM_cons, e]
          have := ih (pre ++ [(r, A r c)]) tx ti (by simpa using h1) (by simpa using h2)
          show List.foldlM (fillEntry eps A c) _ rs = _
          rw [this]
          simp
    · rw [sel_cons_neg rs h] at h1 h2 ⊢
      have e : fillEntry eps A c ⟨pre.map Prod.snd ++ tx, pre.map Prod.fst ++ ti, pre.length⟩ r =
          .ok ⟨pre.map Prod.snd ++ tx, pre.map Prod.fst ++ ti, pre.length⟩ := by
        unfold fillEntry; rw [if_neg h]
      rw [List.foldlM_cons, e]
      exact ih pre tx ti h1 h2

theorem fill_cols (eps : ℝ) (A : Mat ℝ) (m n N : ℕ) (hn : n ≤ N) (tx : List ℝ) (ti : List ℕ)
    (h1 : (flat (fun c => sel eps A c (List.range m)) n).length ≤ tx.length)
    (h2 : (flat (fun c => sel eps A c (List.range m)) n).length ≤ ti.length) :
    (List.range n).foldlM (fillCol eps A m) (⟨tx, ti, 0⟩, List.replicate (N + 1) 0) =
    .ok (⟨(flat (fun c => sel eps A c (List.range m)) n).map Prod.snd ++ tx.drop (flat (fun c => sel eps A c (List.range m)) n).length,
      (flat (fun c => sel eps A c (List.range m)) n).map Prod.fst ++ ti.drop (flat (fun c => sel eps A c (List.range m)) n).length,
      (flat (fun c => sel eps A c (List.range m)) n).length⟩,
      (List.range (n + 1)).map (fun c => (flat (fun c => sel eps A c (List.range m)) c).length) ++ List.replicate (N - n) 0) := by
  set L := fun c => sel eps A c (List.range m) with hL
  induction n with
  | zero => simp [flat]; rfl
  | succ n ih =>
    have hl : (flat L (n + 1)).length = (flat L n).length + (L n).length := by rw [flat_succ, List.length_append]
    rw [List.range_succ, List.foldlM_append, ih (by omega) (by omega) (by omega), okb, List.foldlM_cons]
    have e : fillCol eps A m (⟨(flat L n).map Prod.snd ++ tx.drop (flat L n).length,
        (flat L n).map Prod.fst ++ ti.drop (flat L n).length, (flat L n).length⟩,
        (List.range (n + 1)).map (fun c => (flat L c).length) ++ List.replicate (N - n) 0) n =
        .ok (⟨(flat L (n + 1)).map Prod.snd ++ tx.drop (flat L (n + 1)).length,
          (flat L (n + 1)).map Prod.fst ++ ti.drop (flat L (n + 1)).length, (flat L (n + 1)).length⟩,
          (List.range (n + 1 + 1)).map (fun c => (flat L c).length) ++ List.replicate (N - (n + 1)) 0) := by
      unfold fillCol
      have hr := fill_rows eps A n (List.range m) (flat L n) (tx.drop (flat L n).length) (ti.drop (flat L n).length)
        (by rw [List.length_drop]; change (L n).length ≤ _; omega) (by rw [List.length_drop]; change (L n).length ≤ _; omega)
      simp only [hr]
      obtain ⟨k, hk⟩ : ∃ k, N - n = k + 1 := ⟨N - n - 1, by omega⟩
      have hk' : N - (n + 1) = k := by omega
      have hs := setAt_mid ((List.range (n + 1)).map (fun c => (flat L c).length)) 0 (List.replicate k 0) (flat L (n + 1)).length
      rw [List.length_map, List.length_range] at hs
      rw [hk, hk', List.replicate_succ]
      have hf : flat L n ++ sel eps A n (List.range m) = flat L (n + 1) := (flat_succ L n).symm
      rw [hf]
      simp only [bind, Except.bind, hs, List.drop_drop]
      have hd : (flat L n).length + (sel eps A n (List.range m)).length = (flat L (n + 1)).length := by
        rw [hl]
      rw [hd, List.range_succ (n := n + 1), List.map_append, List.append_assoc]
      rfl
    rw [e]
    rfl

open Classical in
theorem count_eq (eps : ℝ) (A : Mat ℝ) (m n : ℕ) :
    countNz eps A m n = (flat (fun c => sel eps A c (List.range m)) n).length := by
  have inner : ∀ r k, (List.range n).foldl (fun k c => if |A r c| > eps then k + 1 else k) k =
      k + ∑ c ∈ Finset.range n, (if |A r c| > eps then 1 else 0) := by
    intro r k
    induction n with
    | zero => simp
    | succ n ih =>
      rw [List.range_succ, List.foldl_append, ih, Finset.sum_range_succ]
      simp only [List.foldl_cons, List.foldl_nil]
      split_ifs <;> omega
  have outer : countNz eps A m n = ∑ r ∈ Finset.range m, ∑ c ∈ Finset.range n, (if |A r c| > eps then 1 else 0) := by
    unfold countNz
    induction m with
    | zero => rfl
    | succ m ih =>
      rw [List.range_succ, List.foldl_append, ih, Finset.sum_range_succ]
      simp only [List.foldl_cons, List.foldl_nil]
      rw [inner]
  rw [outer, flat_len, Finset.sum_comm]
  apply Finset.sum_congr rfl
  intro c _
  clear outer inner
  unfold sel
  rw [List.length_map]
  induction m with
  | zero => rfl
  | succ m ih =>
    rw [Finset.sum_range_succ, ih, List.range_succ, List.filter_append, List.length_append]
    congr 1
    by_cases h : |A m c| > eps <;> simp [h]

theorem ofDense_holds (junk : ℕ → ℝ × ℕ) (eps : ℝ) (he : 0 < eps) (A : Mat ℝ) (m n : ℕ) :
    ∃ M, ofDense junk eps A m n = .ok M ∧ M.nrow = m ∧ M.ncol = n ∧ M.sym = false ∧
      Holds M (fun c => sel eps A c (List.range m)) := by
  unfold ofDense
  rw [if_pos he]
  simp only
  rw [fill_cols eps A m n n (le_refl _) _ _ (by rw [← count_eq]; simp) (by rw [← count_eq]; simp)]
  refine ⟨⟨m, n, _, _, _, false⟩, rfl, rfl, rfl, rfl, ?_, ?_, ?_⟩
  · simp
  · simp [← count_eq]
  · simp [← count_eq]

/-! ### Reading -/

/-- What one column writes. -/
def write (sym : Bool) (c : ℕ) (out : Mat ℝ) (e : ℕ × ℝ) : Mat ℝ :=
  if sym then put (put out e.1 c e.2) c e.1 e.2 else put out e.1 c e.2

theorem put_entries {M : CSC} {c : ℕ} (hc : c < M.ncol) (hs : M.sym = true → M.nrow = M.ncol) (l : List (ℕ × ℝ)) :
    ∀ (a : ℕ) (out : Mat ℝ), (∀ (k : ℕ) (h : k < l.length), M.i[a + k]? = some l[k].1 ∧ M.x[a + k]? = some l[k].2) →
      (∀ e ∈ l, e.1 < M.nrow) →
      (List.range' a l.length).foldlM (putEntry M c) out = .ok (l.foldl (write M.sym c) out) := by
  induction l with
  | nil => intro a out _ _; rfl
  | cons e l ih =>
    intro a out h hr
    rw [List.length_cons, List.range'_succ, List.foldlM_cons]
    have h0 := h 0 (by simp)
    have he := hr e List.mem_cons_self
    have e1 : putEntry M c out a = .ok (write M.sym c out e) := by
      unfold putEntry
      rw [Nat.add_zero] at h0
      rw [h0.1, h0.2]
      simp only [List.getElem_cons_zero]
      rw [if_pos ⟨he, hc⟩]
      cases hsym : M.sym with
      | false => simp [write]
      | true =>
        by_cases hce : c = e.1
        · rw [if_neg (by simp [hce])]
          simp only [write, if_true]
          congr 1
          funext x y
          simp only [put, ← hce]
          split_ifs <;> rfl
        · rw [if_pos ⟨rfl, hce⟩, if_pos ⟨by rw [hs hsym]; exact hc, by rw [← hs hsym]; exact he⟩]
          simp [write]
    rw [e1, okb, List.foldl_cons]
    refine ih (a + 1) _ (fun k hk => ?_) (fun e he => hr e (List.mem_cons_of_mem _ he))
    have := h (k + 1) (by simpa using hk)
    rw [show a + 1 + k = a + (k + 1) by omega]
    simpa using this

theorem put_cols {M : CSC} {L : ℕ → List (ℕ × ℝ)} (h : Holds M L) (hs : M.sym = true → M.nrow = M.ncol)
    (hr : ∀ c < M.ncol, ∀ e ∈ L c, e.1 < M.nrow) :
    toDense M = .ok ((List.range M.ncol).foldl (fun out c => (L c).foldl (write M.sym c) out) (fun _ _ => 0)) := by
  unfold toDense
  have : ∀ n ≤ M.ncol, (List.range n).foldlM (putCol M) (fun _ _ => 0) =
      .ok ((List.range n).foldl (fun out c => (L c).foldl (write M.sym c) out) (fun _ _ => 0)) := by
    intro n hn
    induction n with
    | zero => rfl
    | succ n ih =>
      rw [List.range_succ, List.foldlM_append, ih (by omega), List.foldl_append, okb, List.foldlM_cons]
      unfold putCol
      rw [h.start (by omega), h.start (by omega)]
      simp only
      rw [show (flat L (n + 1)).length - (flat L n).length = (L n).length by rw [flat_succ, List.length_append]; omega,
        put_entries (by omega) hs (L n) _ _ (h.get (by omega)) (hr n (by omega))]
      rfl
  exact this _ (le_refl _)

/-- Writing the entries of a column, unsymmetric. -/
theorem write_col (c : ℕ) (l : List (ℕ × ℝ)) (hn : (l.map Prod.fst).Nodup) (out : Mat ℝ) :
    (∀ e ∈ l, l.foldl (write false c) out e.1 c = e.2) ∧
    (∀ a, a ∉ l.map Prod.fst → l.foldl (write false c) out a c = out a c) ∧
    (∀ a b, b ≠ c → l.foldl (write false c) out a b = out a b) := by
  induction l generalizing out with
  | nil => exact ⟨fun e he => absurd he List.not_mem_nil, fun _ _ => rfl, fun _ _ _ => rfl⟩
  | cons x l ih =>
    rw [List.map_cons, List.nodup_cons] at hn
    obtain ⟨i1, i2, i3⟩ := ih hn.2 (write false c out x)
    rw [List.foldl_cons]
    refine ⟨fun e he => ?_, fun a ha => ?_, fun a b hb => ?_⟩
    · rcases List.mem_cons.mp he with rfl | he
      · rw [i2 _ hn.1]; simp [write, put]
      · exact i1 e he
    · rw [List.map_cons, List.mem_cons, not_or] at ha
      rw [i2 a ha.2]; simp [write, put, ha.1]
    · rw [i3 a b hb]; simp [write, put, hb]

/-- Writing the entries of a column of an upper triangle. -/
theorem write_sym (c : ℕ) (l : List (ℕ × ℝ)) (hn : (l.map Prod.fst).Nodup) (hu : ∀ e ∈ l, e.1 ≤ c) (out : Mat ℝ) :
    (∀ e ∈ l, l.foldl (write true c) out e.1 c = e.2 ∧ l.foldl (write true c) out c e.1 = e.2) ∧
    (∀ a, a ∉ l.map Prod.fst → l.foldl (write true c) out a c = out a c ∧ l.foldl (write true c) out c a = out c a ∨ c < a) ∧
    (∀ a b, max a b ≠ c → l.foldl (write true c) out a b = out a b) := by
  induction l generalizing out with
  | nil => exact ⟨fun e he => absurd he List.not_mem_nil, fun _ _ => Or.inl ⟨rfl, rfl⟩, fun _ _ _ => rfl⟩
  | cons x l ih =>
    rw [List.map_cons, List.nodup_cons] at hn
    have hx := hu x List.mem_cons_self
    obtain ⟨i1, i2, i3⟩ := ih hn.2 (fun e he => hu e (List.mem_cons_of_mem _ he)) (write true c out x)
    rw [List.foldl_cons]
    refine ⟨fun e he => ?_, fun a ha => ?_, fun a b hb => ?_⟩
    · rcases List.mem_cons.mp he with rfl | he
      · rcases i2 _ hn.1 with h | h
        · rw [h.1, h.2]
          constructor
          · by_cases hc : e.1 = c <;> simp [write, put, hc]
          · simp [write, put]
        · omega
      · exact i1 e he
    · rw [List.map_cons, List.mem_cons, not_or] at ha
      rcases i2 a ha.2 with h | h
      · left
        rw [h.1, h.2]
        refine ⟨?_, ?_⟩
        · simp only [write, put, if_true]
          rw [if_neg (by rintro ⟨h1, h2⟩; exact ha.1 (h1.trans h2)), if_neg (by simp [ha.1])]
        · simp only [write, put, if_true]
          rw [if_neg (by simp [ha.1]), if_neg (by rintro ⟨h1, h2⟩; exact ha.1 (h2.trans h1))]
      · exact Or.inr h
    · rw [i3 a b hb]
      simp only [write, put, if_true]
      rw [if_neg (by rintro ⟨rfl, rfl⟩; exact hb (by omega)), if_neg (by rintro ⟨rfl, rfl⟩; exact hb (by omega))]

end Yac.Sparse
