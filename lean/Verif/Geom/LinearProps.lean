import Verif.Geom.Linear
import Mathlib.Tactic.Linarith
import Mathlib.Tactic.NormNum

/-!
Properties C31 (conversions) and C68 (`enforce_psd`).
-/

set_option linter.unusedSectionVars false

namespace Yac.Geom
open DMat
variable {K : Type}

theorem loadCol_spec (x : List K) (i : Nat) (n j : Nat) (y : DMat K) (idx : Nat)
    (h : idx + n ≤ x.length) :
    ∃ y', loadCol x i n j (y, idx) = .ok (y', idx + n) ∧ y'.rows = y.rows ∧ y'.cols = y.cols ∧
      ∀ a b, y'.e a b = if b = i ∧ j ≤ a ∧ a < j + n then (x[idx + (a - j)]?).getD (y.e a b)
        else y.e a b := by
  induction n generalizing j y idx with
  | zero =>
    refine ⟨y, rfl, rfl, rfl, fun a b => ?_⟩
    rw [if_neg (by omega)]
  | succ n ih =>
    have hlt : idx < x.length := by omega
    obtain ⟨y', h1, h2, h3, h4⟩ := ih (j + 1) (y.set j i x[idx]) (idx + 1) (by omega)
    refine ⟨y', ?_, h2, h3, ?_⟩
    · rw [loadCol, List.getElem?_eq_getElem hlt]
      simp only [h1]; congr 2; omega
    · intro a b
      rw [h4]
      by_cases hb : b = i ∧ j ≤ a ∧ a < j + (n + 1)
      · rw [if_pos hb]
        obtain ⟨rfl, hj, ha⟩ := hb
        by_cases haj : a = j
        · subst haj
          rw [if_neg (by omega)]
          simp [DMat.set, List.getElem?_eq_getElem hlt]
        · rw [if_pos ⟨rfl, by omega, by omega⟩]
          have : idx + 1 + (a - (j + 1)) = idx + (a - j) := by omega
          rw [this, List.getElem?_eq_getElem (by omega)]
          simp
      · rw [if_neg hb, if_neg (by omega)]
        simp only [DMat.set]
        rw [if_neg (by omega)]

theorem loadCols_spec (x : List K) (rows : Nat) (n i : Nat) (y : DMat K) (idx : Nat)
    (h : idx + n * rows ≤ x.length) :
    ∃ y', loadCols x rows n i (y, idx) = .ok (y', idx + n * rows) ∧ y'.rows = y.rows ∧
      y'.cols = y.cols ∧
      ∀ a b, a < rows → y'.e a b = if i ≤ b ∧ b < i + n then
        (x[idx + (b - i) * rows + a]?).getD (y.e a b) else y.e a b := by
  induction n generalizing i y idx with
  | zero =>
    refine ⟨y, by simp [loadCols], rfl, rfl, fun a b _ => ?_⟩
    rw [if_neg (by omega)]
  | succ n ih =>
    have hm : (n + 1) * rows = rows + n * rows := by ring
    obtain ⟨y1, a1, a2, a3, a4⟩ := loadCol_spec x i rows 0 y idx (by omega)
    obtain ⟨y', h1, h2, h3, h4⟩ := ih (i + 1) y1 (idx + rows) (by omega)
    refine ⟨y', ?_, h2.trans a2, h3.trans a3, ?_⟩
    · rw [loadCols, a1]
      simp only [bind, Except.bind]
      rw [h1]; congr 2; omega
    · intro a b ha
      rw [h4 a b ha, a4]
      by_cases hb : i ≤ b ∧ b < i + (n + 1)
      · rw [if_pos hb]
        by_cases hbi : b = i
        · subst hbi
          rw [if_neg (by omega), if_pos ⟨rfl, by omega, by omega⟩]
          simp
        · rw [if_pos (by omega)]
          have e1 : b - i = (b - (i + 1)) + 1 := by omega
          have e2 : (b - i) * rows = rows + (b - (i + 1)) * rows := by rw [e1]; ring
          rw [e2]
          have e3 : idx + rows + (b - (i + 1)) * rows + a =
            idx + (rows + (b - (i + 1)) * rows) + a := by omega
          rw [e3]
          have hlt : idx + (rows + (b - (i + 1)) * rows) + a < x.length := by
            have : (b - (i + 1)) * rows + rows ≤ n * rows := by
              have : b - (i + 1) + 1 ≤ n := by omega
              calc (b - (i + 1)) * rows + rows = (b - (i + 1) + 1) * rows := by ring
                _ ≤ n * rows := Nat.mul_le_mul_right _ this
            omega
          rw [List.getElem?_eq_getElem hlt]; simp
      · rw [if_neg hb, if_neg (by omega), if_neg (by omega)]

theorem foldl_app {α : Type} (f : α → K) (l : List α) (x : List K) :
    l.foldl (fun x a => x ++ [f a]) x = x ++ l.map f := by
  induction l generalizing x with
  | nil => simp
  | cons a l ih => simp [ih]

theorem foldl_app2 {α : Type} (f : α → List K) (l : List α) (x : List K) :
    l.foldl (fun x a => x ++ f a) x = x ++ l.flatMap f := by
  induction l generalizing x with
  | nil => simp
  | cons a l ih => simp [ih]

theorem flatMap_range_get (f : Nat → Nat → K) (m n i j : Nat) (hi : i < m) (hj : j < n) :
    ((List.range m).flatMap (fun i => (List.range n).map (f i)))[i * n + j]? = some (f i j) := by
  induction m with
  | zero => omega
  | succ m ih =>
    rw [List.range_succ, List.flatMap_append]
    have hl : ((List.range m).flatMap (fun i => (List.range n).map (f i))).length = m * n := by
      rw [List.length_flatMap]; simp [List.map_const']
    rcases Nat.lt_or_ge i m with h | h
    · rw [List.getElem?_append_left]
      · exact ih h
      · rw [hl]
        calc i * n + j < i * n + n := by omega
          _ = (i + 1) * n := by ring
          _ ≤ m * n := Nat.mul_le_mul_right _ h
    · have : i = m := by omega
      subst this
      rw [List.getElem?_append_right (by rw [hl]; omega), hl]
      simp [hj]

theorem flatMap_range_len (f : Nat → Nat → K) (m n : Nat) :
    ((List.range m).flatMap (fun i => (List.range n).map (f i))).length = m * n := by
  rw [List.length_flatMap]; simp [List.map_const']

theorem store_eq (A : DMat K) (x : List K) :
    A.store x = x ++ (List.range A.cols).flatMap (fun i => (List.range A.rows).map
      (fun j => A.e j i)) := by
  unfold store
  rw [← foldl_app2]
  congr 1
  funext x i
  exact foldl_app (fun j => A.e j i) _ x

theorem toArray_eq (A : DMat K) :
    A.toArray = (List.range A.rows).flatMap (fun i => (List.range A.cols).map
      (fun j => A.e i j)) := by
  unfold toArray
  have : ∀ (x : List K), (List.range A.rows).foldl (fun x i =>
      (List.range A.cols).foldl (fun x j => x ++ [A.e i j]) x) x =
      x ++ (List.range A.rows).flatMap (fun i => (List.range A.cols).map (fun j => A.e i j)) := by
    intro x
    rw [← foldl_app2]
    congr 1
    funext x i
    exact foldl_app (fun j => A.e i j) _ x
  simpa using this []

/-- C31: `load_matrix(x, rows, cols, y)` puts element `c * rows + r` of the list at row `r`
and column `c` (column-major), and reads outside the list exactly if the list is too short. -/
theorem C31_load (init : Nat → Nat → K) (x : List K) (rows cols : Nat) :
    (rows * cols ≤ x.length → ∃ y, load init x rows cols = .ok y ∧ y.rows = rows ∧
      y.cols = cols ∧ ∀ r c, r < rows → c < cols → x[c * rows + r]? = some (y.e r c)) ∧
    (x.length < rows * cols → load init x rows cols = .error .oob) := by
  constructor
  · intro h
    obtain ⟨y, h1, h2, h3, h4⟩ := loadCols_spec x rows cols 0 ⟨rows, cols, init⟩ 0
      (by rw [Nat.mul_comm cols]; omega)
    refine ⟨y, by rw [load, h1]; rfl, h2, h3, ?_⟩
    intro r c hr hc
    rw [h4 r c hr, if_pos (by omega)]
    have hlt : c * rows + r < x.length := by
      have : (c + 1) * rows ≤ cols * rows := Nat.mul_le_mul_right _ hc
      have e : (c + 1) * rows = c * rows + rows := by ring
      have e' : cols * rows = rows * cols := Nat.mul_comm _ _
      omega
    simp only [Nat.zero_add, Nat.sub_zero]
    rw [List.getElem?_eq_getElem hlt]; simp
  · intro h
    have inner : ∀ n j i (s : DMat K × Nat), x.length < s.2 + n → s.2 ≤ x.length →
        loadCol x i n j s = .error .oob := by
      intro n
      induction n with
      | zero => intro j i s h1 h2; omega
      | succ n ih =>
        rintro j i ⟨y, idx⟩ h1 h2
        rw [loadCol]
        rcases Nat.lt_or_ge idx x.length with hl | hl
        · rw [List.getElem?_eq_getElem hl]
          exact ih _ _ _ (by simp only at h1 ⊢; omega) (by simp only; omega)
        · rw [List.getElem?_eq_none hl]
    have outer : ∀ n i (s : DMat K × Nat), x.length < s.2 + n * rows → s.2 ≤ x.length →
        loadCols x rows n i s = .error .oob := by
      intro n
      induction n with
      | zero => intro i s h1 h2; omega
      | succ n ih =>
        rintro i ⟨y, idx⟩ h1 h2
        simp only at h1 h2
        rw [loadCols]
        have hm : (n + 1) * rows = rows + n * rows := by ring
        rcases Nat.lt_or_ge x.length (idx + rows) with hl | hl
        · rw [inner rows 0 i (y, idx) hl h2]; rfl
        · obtain ⟨y1, a1, _⟩ := loadCol_spec x i rows 0 y idx hl
          rw [a1]
          exact ih _ _ (by simp only; omega) hl
    rw [load, outer cols 0 _ (by simp only; rw [Nat.mul_comm cols]; omega) (by simp)]
    rfl

/-- C31: `load_matrix(A, x)` appends the columns of `A` one after the other, so with an empty
output list loading the result with the same dimensions gives `A` back. -/
theorem C31_store_load (init : Nat → Nat → K) (A : DMat K) :
    (∀ x r c, r < A.rows → c < A.cols →
      (A.store x)[x.length + (c * A.rows + r)]? = some (A.e r c)) ∧
    (∀ x, (A.store x).length = x.length + A.rows * A.cols ∧ (A.store x).take x.length = x) ∧
    ∃ B, load init (A.store []) A.rows A.cols = .ok B ∧ B.rows = A.rows ∧ B.cols = A.cols ∧
      ∀ r c, r < A.rows → c < A.cols → B.e r c = A.e r c := by
  have get : ∀ x r c, r < A.rows → c < A.cols →
      (A.store x)[x.length + (c * A.rows + r)]? = some (A.e r c) := by
    intro x r c hr hc
    rw [store_eq, List.getElem?_append_right (by omega)]
    rw [show x.length + (c * A.rows + r) - x.length = c * A.rows + r by omega]
    exact flatMap_range_get (fun i j => A.e j i) A.cols A.rows c r hc hr
  have len : ∀ x, (A.store x).length = x.length + A.rows * A.cols := by
    intro x
    rw [store_eq, List.length_append,
      flatMap_range_len (fun i j => A.e j i), Nat.mul_comm]
  refine ⟨get, fun x => ⟨len x, by rw [store_eq]; simp⟩, ?_⟩
  obtain ⟨B, h1, h2, h3, h4⟩ := (C31_load init (A.store []) A.rows A.cols).1 (by rw [len]; simp)
  refine ⟨B, h1, h2, h3, fun r c hr hc => ?_⟩
  have e1 := h4 r c hr hc
  have e2 := get [] r c hr hc
  simp only [List.length_nil, Nat.zero_add] at e2
  rw [e1] at e2
  exact Option.some.inj e2

/-- C31: `mat2array` stores row after row: element `r * cols + c` is the entry `(r, c)`. -/
theorem C31_mat2array (A : DMat K) :
    A.toArray.length = A.rows * A.cols ∧
    ∀ r c, r < A.rows → c < A.cols → A.toArray[r * A.cols + c]? = some (A.e r c) := by
  rw [toArray_eq]
  exact ⟨flatMap_range_len (fun i j => A.e i j) _ _,
    fun r c hr hc => flatMap_range_get (fun i j => A.e i j) A.rows A.cols r c hr hc⟩

/-- The two conventions differ: loading an array made by `mat2array` with the dimensions
exchanged gives the transpose. -/
theorem C31_mat2array_load (init : Nat → Nat → K) (A : DMat K) :
    ∃ B, load init A.toArray A.cols A.rows = .ok B ∧
      ∀ r c, r < A.rows → c < A.cols → B.e c r = A.e r c := by
  obtain ⟨hl, hg⟩ := C31_mat2array A
  obtain ⟨B, h1, _, _, h4⟩ := (C31_load init A.toArray A.cols A.rows).1
    (by rw [hl, Nat.mul_comm])
  refine ⟨B, h1, fun r c hr hc => ?_⟩
  have e1 := h4 c r hc hr
  rw [hg r c hr hc] at e1
  exact (Option.some.inj e1).symm

/-- C31: `mat2vec` lists the rows (or columns); `vec2array` copies; `quat2array` is
`(x, y, z, w)`. -/
theorem C31_mat2vec (A : DMat K) :
    ((A.toVecs true).length = A.rows ∧ (A.toVecs false).length = A.cols) ∧
    (∀ r c, r < A.rows → c < A.cols →
      (∃ v, (A.toVecs true)[r]? = some v ∧ v.length = A.cols ∧ v[c]? = some (A.e r c)) ∧
      ∃ v, (A.toVecs false)[c]? = some v ∧ v.length = A.rows ∧ v[r]? = some (A.e r c)) ∧
    (∀ n b, toVecsN n A b = (if (if b then A.cols else A.rows) = n then .ok (A.toVecs b)
      else .error .fatal)) ∧
    (∀ v : List K, vec2array v = v) := by
  refine ⟨by simp [toVecs], ?_, fun _ _ => rfl, ?_⟩
  · intro r c hr hc
    simp [toVecs, hr, hc]
  · intro v
    have := foldl_app (fun x : K => x) v []
    simpa [vec2array] using this

/-- C31: column `j` of `vecs2mat` is point `j` in homogeneous coordinates. -/
theorem C31_vecs2mat [Zero K] [One K] (vs : List (K × K × K)) :
    (ofVecs vs).rows = 4 ∧ (ofVecs vs).cols = vs.length ∧
    ∀ j (h : j < vs.length), (ofVecs vs).e 0 j = vs[j].1 ∧ (ofVecs vs).e 1 j = vs[j].2.1 ∧
      (ofVecs vs).e 2 j = vs[j].2.2 ∧ (ofVecs vs).e 3 j = 1 := by
  refine ⟨rfl, rfl, fun j h => ?_⟩
  simp [ofVecs, List.getElem?_eq_getElem h]

/-- C31: the stacking functions keep both operands. -/
theorem C31_stack [Zero K] (A B : DMat K) :
    (A.rows = B.rows → ∃ C, hstack A B = .ok C ∧ C.rows = A.rows ∧ C.cols = A.cols + B.cols ∧
      (∀ i j, j < A.cols → C.e i j = A.e i j) ∧ ∀ i j, C.e i (A.cols + j) = B.e i j) ∧
    (A.cols = B.cols → ∃ C, vstack A B = .ok C ∧ C.rows = A.rows + B.rows ∧ C.cols = A.cols ∧
      (∀ i j, i < A.rows → C.e i j = A.e i j) ∧ ∀ i j, C.e (A.rows + i) j = B.e i j) ∧
    ((dstack A B).rows = A.rows + B.rows ∧ (dstack A B).cols = A.cols + B.cols ∧
      (∀ i j, i < A.rows → j < A.cols → (dstack A B).e i j = A.e i j) ∧
      (∀ i j, i < B.rows → j < B.cols → (dstack A B).e (A.rows + i) (A.cols + j) = B.e i j) ∧
      (∀ i j, i < A.rows → A.cols ≤ j → (dstack A B).e i j = 0) ∧
      ∀ i j, A.rows ≤ i → j < A.cols → (dstack A B).e i j = 0) := by
  refine ⟨?_, ?_, rfl, rfl, ?_, ?_, ?_, ?_⟩
  · intro h
    exact ⟨_, if_pos h, rfl, rfl, fun i j hj => if_pos hj, fun i j => by simp⟩
  · intro h
    exact ⟨_, if_pos h, rfl, rfl, fun i j hi => if_pos hi, fun i j => by simp⟩
  · intro i j hi hj
    simp only [dstack]
    rw [if_neg (by omega), if_pos ⟨hi, hj⟩]
  · intro i j hi hj
    simp only [dstack]
    rw [if_pos (by omega)]; congr 1 <;> omega
  · intro i j hi hj
    simp only [dstack]
    rw [if_neg (by omega), if_neg (by omega)]
  · intro i j hi hj
    simp only [dstack]
    rw [if_neg (by omega), if_neg (by omega)]

/-- C31 fails for `array2vec`: the output vector of the caller is not changed. -/
theorem C31_array2vec_refuted : array2vec [1, 2, (3 : ℤ)] 3 [] = [] ∧
    ∀ (x y : List K) n, array2vec x n y = y := ⟨rfl, fun _ _ _ => rfl⟩

/-- C31 fails for `load_matrix(A, x)` into a non-empty list: the values are appended, and
loading them back gives other numbers. -/
theorem C31_store_nonempty_refuted :
    (DMat.store ⟨1, 1, fun _ _ => (5 : ℤ)⟩ [7]) = [7, 5] ∧
    (load (fun _ _ => 0) (DMat.store ⟨1, 1, fun _ _ => (5 : ℤ)⟩ [7]) 1 1).toOption.map
      (fun B => B.e 0 0) = some 7 := by decide

/-- C31 witness: a 2x3 matrix. -/
example : (load (fun _ _ => 0) [1, 2, 3, 4, 5, (6 : ℤ)] 2 3).toOption.map
      (fun B => (B.e 0 0, B.e 1 0, B.e 0 1, B.e 1 2)) = some (1, 2, 3, 6) ∧
    (DMat.toArray ⟨2, 3, fun i j => (10 * i + j : Nat)⟩) = [0, 1, 2, 10, 11, 12] := by decide

/-! ## C68 -/

section psd
variable [Field K] [LinearOrder K] [IsStrictOrderedRing K]

/-- The value `enforce_psd` gives to entry `(a, b)`. -/
def psdVal (A : DMat K) (a b : Nat) : K :=
  if a = b then |A.e a a| else (1 / 2) * (A.e a b + A.e b a)

theorem psdVal_comm (A : DMat K) (a b : Nat) : psdVal A a b = psdVal A b a := by
  unfold psdVal
  by_cases h : a = b
  · subst h; rfl
  · rw [if_neg h, if_neg (fun h' => h h'.symm), add_comm]

theorem psdStep_eq (A : DMat K) (i j : Nat) (P : DMat K) :
    (psdStep A i j P).rows = P.rows ∧ (psdStep A i j P).cols = P.cols ∧
    ∀ a b, (psdStep A i j P).e a b =
      if (a = i ∧ b = j) ∨ (a = j ∧ b = i) then psdVal A a b else P.e a b := by
  unfold psdStep
  by_cases h : i = j
  · subst h
    rw [if_pos rfl]
    refine ⟨rfl, rfl, fun a b => ?_⟩
    by_cases hab : a = i ∧ b = i
    · obtain ⟨rfl, rfl⟩ := hab
      simp [DMat.set, psdVal]
    · simp only [DMat.set, hab, or_self, if_false]
  · rw [if_neg h]
    refine ⟨rfl, rfl, fun a b => ?_⟩
    simp only [DMat.set]
    by_cases c1 : a = j ∧ b = i
    · obtain ⟨rfl, rfl⟩ := c1
      rw [if_pos ⟨rfl, rfl⟩, if_pos (Or.inr ⟨rfl, rfl⟩), psdVal, if_neg (fun h' => h h'.symm)]
      ring
    · rw [if_neg c1]
      by_cases c2 : a = i ∧ b = j
      · obtain ⟨rfl, rfl⟩ := c2
        rw [if_pos ⟨rfl, rfl⟩, if_pos (Or.inl ⟨rfl, rfl⟩), psdVal, if_neg h]
      · rw [if_neg c2, if_neg (by rintro (h' | h') <;> contradiction)]

theorem psd_row (A : DMat K) (i n : Nat) (P : DMat K) :
    let Q := (List.range n).foldl (fun P j => psdStep A i j P) P
    Q.rows = P.rows ∧ Q.cols = P.cols ∧
    ∀ a b, Q.e a b = if (a = i ∧ b < n) ∨ (b = i ∧ a < n) then psdVal A a b else P.e a b := by
  induction n with
  | zero => simp
  | succ n ih =>
    simp only [List.range_succ, List.foldl_append, List.foldl_cons, List.foldl_nil] at ih ⊢
    obtain ⟨h1, h2, h3⟩ := ih
    generalize (List.range n).foldl (fun P j => psdStep A i j P) P = Q at h1 h2 h3
    obtain ⟨g1, g2, g3⟩ := psdStep_eq A i n Q
    refine ⟨g1.trans h1, g2.trans h2, fun a b => ?_⟩
    rw [g3, h3]
    by_cases c : (a = i ∧ b = n) ∨ (a = n ∧ b = i)
    · rw [if_pos c, if_pos (by omega)]
    · rw [if_neg c]
      by_cases d : (a = i ∧ b < n) ∨ (b = i ∧ a < n)
      · rw [if_pos d, if_pos (by omega)]
      · rw [if_neg d, if_neg (by omega)]

/-- C68, partial: `enforce_psd` returns the symmetric part of a square matrix with the
diagonal replaced by its absolute value: a symmetric matrix with nonnegative diagonal.
Missing: positive semidefiniteness, see `C68_psd_refuted`. -/
theorem C68_enforce_psd_partial (init : Nat → Nat → K) (A : DMat K) (hsq : A.rows = A.cols) :
    ∃ P, enforcePsd init A = .ok P ∧ P.rows = A.rows ∧ P.cols = A.cols ∧
    (∀ i, i < A.rows → P.e i i = |A.e i i|) ∧
    (∀ i j, i < A.rows → j < A.rows → i ≠ j → P.e i j = (A.e i j + A.e j i) / 2) ∧
    (∀ i j, i < A.rows → j < A.rows → P.e i j = P.e j i) ∧
    (∀ i, i < A.rows → 0 ≤ P.e i i) := by
  have main : ∀ n, n ≤ A.rows →
      let Q := (List.range n).foldl (fun P i =>
        (List.range A.cols).foldl (fun P j => psdStep A i j P) P) (⟨A.rows, A.cols, init⟩ : DMat K)
      Q.rows = A.rows ∧ Q.cols = A.cols ∧ ∀ a b, a < A.rows → b < A.rows → a < n ∨ b < n →
        Q.e a b = psdVal A a b := by
    intro n
    induction n with
    | zero => intro _; exact ⟨rfl, rfl, fun a b _ _ h => by omega⟩
    | succ n ih =>
      intro hn
      simp only [List.range_succ, List.foldl_append, List.foldl_cons, List.foldl_nil] at ih ⊢
      obtain ⟨h1, h2, h3⟩ := ih (by omega)
      obtain ⟨g1, g2, g3⟩ := psd_row A n A.cols ((List.range n).foldl (fun P i =>
        (List.range A.cols).foldl (fun P j => psdStep A i j P) P) (⟨A.rows, A.cols, init⟩ : DMat K))
      refine ⟨g1.trans h1, g2.trans h2, fun a b ha hb hab => ?_⟩
      rw [g3]
      by_cases c : (a = n ∧ b < A.cols) ∨ (b = n ∧ a < A.cols)
      · rw [if_pos c]
      · rw [if_neg c]
        exact h3 a b ha hb (by omega)
  obtain ⟨h1, h2, h3⟩ := main A.rows le_rfl
  refine ⟨_, if_pos hsq, h1, h2, ?_, ?_, ?_, ?_⟩
  · intro i hi; rw [h3 i i hi hi (by omega), psdVal, if_pos rfl]
  · intro i j hi hj hij; rw [h3 i j hi hj (by omega), psdVal, if_neg hij]; ring
  · intro i j hi hj
    rw [h3 i j hi hj (by omega), h3 j i hj hi (by omega), psdVal_comm]
  · intro i hi; rw [h3 i i hi hi (by omega), psdVal, if_pos rfl]; exact abs_nonneg _

end psd

/-- C68 fails: the result of `enforce_psd` need not be positive semidefinite. -/
theorem C68_psd_refuted :
    (enforcePsd (fun _ _ => 0) (⟨2, 2, fun i j => if i = j then 0 else 1⟩ : DMat ℚ)).toOption.map
      (fun P => P.e 0 0 * 1 * 1 + (P.e 0 1 + P.e 1 0) * 1 * (-1) + P.e 1 1 * (-1) * (-1)) =
      some (-2) := by decide +kernel

example : (enforcePsd (fun _ _ => 0) (⟨2, 2, fun i j => if i = j then -3 else (i : ℚ)⟩ :
    DMat ℚ)).toOption.map (fun P => (P.e 0 0, P.e 0 1, P.e 1 0, P.e 1 1)) =
    some (3, 1/2, 1/2, 3) := by decide +kernel

end Yac.Geom
