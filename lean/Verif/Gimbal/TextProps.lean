import Verif.Gimbal.TextSpec

namespace Yac.Gimbal
open Yac.Text Yac.Num

theorem okb' {α β : Type} (a : α) (f : α → Except Fault β) : (Except.ok a >>= f) = f a := rfl
theorem errb {α β : Type} (e : Fault) (f : α → Except Fault β) : ((Except.error e : Except Fault α) >>= f) = .error e := rfl

theorem trimEnd_suffix (p : Char → Bool) (t suf : Str) (h0 : t ≠ []) (hl : ∀ c, t.getLast? = some c → p c = false)
    (hs : ∀ c ∈ suf, p c = true) : trimEnd p (t ++ suf) = t := by
  cases t with
  | nil => exact absurd rfl h0
  | cons c cs =>
    rw [List.cons_append, trimEnd]
    congr 1
    rw [List.reverse_append, List.dropWhile_append_of_pos (by simpa using hs)]
    cases h : cs.reverse with
    | nil =>
      have : cs = [] := by simpa using h
      simp [this]
    | cons d ds =>
      have hcs : cs = ds.reverse ++ [d] := by
        have := congrArg List.reverse h
        simpa using this
      have hd : p d = false := hl d (by rw [hcs]; simp [List.getLast?_cons])
      rw [List.dropWhile_cons_of_neg (by simp [hd]), hcs]
      simp

theorem dropWhile_head (p : Char → Bool) (pre t : Str) (hp : ∀ c ∈ pre, p c = true)
    (ht : ∀ c, t.head? = some c → p c = false) : (pre ++ t).dropWhile p = t := by
  rw [List.dropWhile_append_of_pos hp]
  cases t with
  | nil => rfl
  | cons c cs => rw [List.dropWhile_cons_of_neg (by simp [ht c rfl])]

/-- `string_strip` removes the blanks before and the blanks and line ends after a text. -/
theorem strip_pad (t pre suf : Str) (h0 : t ≠ []) (hh : t.head? ≠ some ' ')
    (hl : t.getLast? ≠ some ' ' ∧ t.getLast? ≠ some '\n') (hp : ∀ c ∈ pre, c = ' ')
    (hs : ∀ c ∈ suf, c = ' ' ∨ c = '\n') : strip (pre ++ t ++ suf) = t := by
  unfold strip
  rw [List.append_assoc, dropWhile_head]
  · apply trimEnd_suffix _ _ _ h0
    · intro c hc
      rw [hc] at hl
      have h1 : c ≠ ' ' := fun h => hl.1 (by rw [h])
      have h2 : c ≠ '\n' := fun h => hl.2 (by rw [h])
      simp [h1, h2]
    · intro c hc
      rcases hs c hc with rfl | rfl <;> rfl
  · intro c hc
    simp [hp c hc]
  · intro c hc
    cases t with
    | nil => exact absurd rfl h0
    | cons d ds =>
      simp only [List.cons_append, List.head?_cons, Option.some.injEq] at hc hh
      rw [← hc]; simp only [decide_eq_false_iff_not]; exact fun h => hh (by rw [h])

theorem strip_self (t : Str) (hh : t.head? ≠ some ' ') (hl : t.getLast? ≠ some ' ' ∧ t.getLast? ≠ some '\n') :
    strip t = t := by
  by_cases h0 : t = []
  · subst h0; rfl
  · simpa using strip_pad t [] [] h0 hh hl (by simp) (by simp)

theorem stripChar_quoted (name : Str) (h : '"' ∉ name) : stripChar '"' (quoted name) = name := by
  unfold stripChar quoted
  by_cases h0 : name = []
  · subst h0; rfl
  · have e : '"' :: name ++ ['"'] = ['"'] ++ (name ++ ['"']) := rfl
    rw [e, dropWhile_head]
    · apply trimEnd_suffix _ _ _ h0
      · intro c hc
        have : c ≠ '"' := by rintro rfl; exact h (List.mem_of_getLast? hc)
        simp [this]
      · simp
    · simp
    · intro c hc
      cases name with
      | nil => exact absurd rfl h0
      | cons d ds =>
        simp only [List.cons_append, List.head?_cons, Option.some.injEq] at hc
        have : d ≠ '"' := by rintro rfl; exact h (by simp)
        rw [← hc]; simp [this]

/-- A value: a line of text without a colon that does not begin or end with a blank. -/
structure ValOk (v : Str) : Prop where
  plain : ∀ x ∈ v, x ≠ ':' ∧ x ≠ '\n' ∧ x ≠ nul
  ne : v ≠ []
  head : v.head? ≠ some ' '
  last : v.getLast? ≠ some ' '

/-- A key: a word. -/
structure KeyOk (k : Str) : Prop where
  plain : ∀ x ∈ k, x ≠ ':' ∧ x ≠ '\n' ∧ x ≠ nul ∧ x ≠ ' '
  ne : k ≠ []

theorem getLine_line (n : Nat) (t rest : Str) (h : '\n' ∉ t) (hz : nul ∉ t) (hl : t.length + 1 ≤ n) :
    getLine n (t ++ '\n' :: rest) = some (t ++ ['\n'], rest) := by
  unfold getLine
  rw [fgets_line n t rest h hl]
  simp only [Option.map_some]
  rw [cstr_self]
  simp only [List.mem_append, not_or]
  exact ⟨hz, by decide⟩

theorem skip_line (t rest : Str) (h : '\n' ∉ t) (hl : t.length < 9045) : skip (t ++ '\n' :: rest) = rest := by
  unfold skip getLine
  rw [fgets_line 9045 t rest h (by omega)]
  rfl

theorem tokens_kv (i : Nat) (k v : Str) (hk : KeyOk k) (hv : ValOk v) :
    tokens ':' (List.replicate i ' ' ++ k ++ ':' :: ' ' :: v ++ ['\n']) = [List.replicate i ' ' ++ k, ' ' :: v ++ ['\n']] := by
  unfold tokens
  have e : List.replicate i ' ' ++ k ++ ':' :: ' ' :: v ++ ['\n'] = (List.replicate i ' ' ++ k) ++ ':' :: (' ' :: v ++ ['\n']) := by simp
  rw [e, getAll_cons, getAll_last _ _ _ (by simp)]
  · simp [hk.ne]
  · simp only [List.mem_append, List.mem_cons, List.not_mem_nil, or_false, not_or]
    exact ⟨⟨by decide, fun h => (hv.plain _ h).1 rfl⟩, by decide⟩
  · simp only [List.mem_append, not_or]
    exact ⟨fun h => absurd (List.eq_of_mem_replicate h) (by decide), fun h => (hk.plain _ h).1 rfl⟩

/-- Reading a line `key: value`: the value if the key is the one asked for, otherwise the program stops. -/
theorem keyValue_line (i : Nat) (k key v rest : Str) (hk : KeyOk k) (hv : ValOk v) (hf : Fits i k v) :
    keyValue key (kv i k v ++ rest) = if k = key then .ok (v, rest) else .error .fatal := by
  have hnl : v.getLast? ≠ some '\n' := fun h => (hv.plain _ (List.mem_of_getLast? h)).2.1 rfl
  have e : kv i k v ++ rest = (List.replicate i ' ' ++ k ++ ':' :: ' ' :: v) ++ '\n' :: rest := by simp [kv]
  unfold keyValue
  rw [e, getLine_line]
  · simp only
    rw [tokens_kv i k v hk hv]
    have h1 : strip (List.replicate i ' ' ++ k) = k := by
      have := strip_pad k (List.replicate i ' ') [] hk.ne
        (fun h => (hk.plain _ (List.mem_of_head? h)).2.2.2 rfl)
        ⟨fun h => (hk.plain _ (List.mem_of_getLast? h)).2.2.2 rfl, fun h => (hk.plain _ (List.mem_of_getLast? h)).2.1 rfl⟩
        (fun c hc => List.eq_of_mem_replicate hc) (by simp)
      simpa using this
    have h2 : strip (' ' :: v ++ ['\n']) = v := by
      have := strip_pad v [' '] ['\n'] hv.ne hv.head ⟨hv.last, hnl⟩ (by simp) (by simp)
      simpa using this
    simp only
    rw [h1, h2]
  · simp only [List.mem_append, List.mem_cons, not_or]
    exact ⟨⟨fun h => absurd (List.eq_of_mem_replicate h) (by decide), fun h => (hk.plain _ h).2.1 rfl⟩, by decide, by decide,
      fun h => (hv.plain _ h).2.1 rfl⟩
  · simp only [List.mem_append, List.mem_cons, not_or]
    exact ⟨⟨fun h => absurd (List.eq_of_mem_replicate h) (by decide), fun h => (hk.plain _ h).2.2.1 rfl⟩, by decide, by decide,
      fun h => (hv.plain _ h).2.2 rfl⟩
  · unfold Fits kv at hf
    simp only [List.length_append, List.length_cons, List.length_nil] at hf ⊢
    omega

theorem keyValue_kv (i : Nat) (k v rest : Str) (hk : KeyOk k) (hv : ValOk v) (hf : Fits i k v) :
    keyValue k (kv i k v ++ rest) = .ok (v, rest) := by rw [keyValue_line i k k v rest hk hv hf, if_pos rfl]

/-! ### Vectors -/

theorem vectorLoop_cell {α : Type} (cap : Nat) (conv : ℚ → Except Fault α) (c rest : Str)
    (h : ∀ x ∈ c, x ≠ ',' ∧ x ≠ ']' ∧ x ≠ '[' ∧ x ≠ ':' ∧ x ≠ '\n' ∧ x ≠ nul) :
    ∀ (e : Str) (out : List α), nul ∉ e → e.length + (squeeze c).length ≤ 99 →
      vectorLoop cap conv (c ++ rest) (hold 1024 e) out =
        vectorLoop cap conv rest (hold 1024 (e ++ squeeze c)) out := by
  induction c with
  | nil => intro e out _ _; simp [squeeze]
  | cons x c ih =>
    intro e out he hl
    have ih := ih (fun y hy => h y (by simp [hy]))
    obtain ⟨h1, h2, h3, -, h5, h6⟩ := h x (by simp)
    rw [List.cons_append, vectorLoop]
    by_cases hx : x = ' '
    · rw [if_pos (Or.inr hx)]
      have hk : squeeze (x :: c) = squeeze c := by simp [squeeze, hx]
      rw [hk] at hl ⊢
      exact ih e out he hl
    · have hk : squeeze (x :: c) = x :: squeeze c := by simp [squeeze, hx]
      rw [hk, List.length_cons] at hl
      rw [if_neg (by simp [hx, h3]), if_neg (by simp [h1, h2, h5]), pushEntry_hold (by omega) he, okb',
        ih (e ++ [x]) out, hk]
      · simp
      · simp only [List.mem_append, List.mem_singleton, not_or]
        exact ⟨he, fun h => h6 h.symm⟩
      · simp; omega

theorem vectorLoop_sep {α : Type} (cap : Nat) (conv : ℚ → Except Fault α) {x : Char} (hx : x = ',' ∨ x = ']') (rest : Str)
    (e : Str) (out : List α) (he : nul ∉ e) (hl : e.length ≤ 99) :
    vectorLoop cap conv (x :: rest) (hold 1024 e) out = (conv (atof e) >>= fun v =>
      if out.length < cap then vectorLoop cap conv rest (hold 1024 []) (out ++ [v]) else .error .oob) := by
  rw [vectorLoop, if_neg (by rcases hx with rfl | rfl <;> decide), if_pos (by rcases hx with rfl | rfl <;> simp),
    readEntry_hold (by omega) he, okb', clearEntry_hold (by omega) (by omega)]

theorem squeeze_nul {c : Str} (h : nul ∉ c) : nul ∉ squeeze c := fun hc => h (List.mem_filter.mp hc).1

theorem vectorLoop_cells {α : Type} (cap : Nat) (conv : ℚ → Except Fault α) (cs : List Str) (hne : cs ≠ [])
    (h : ∀ c ∈ cs, NumOk c) (vs : List α) (hv : cs.map (fun c => conv (number c)) = vs.map .ok) (out : List α) :
    vectorLoop cap conv (cells cs) (hold 1024 []) out =
      if out.length + cs.length ≤ cap then .ok (out ++ vs) else .error .oob := by
  induction cs generalizing out vs with
  | nil => exact absurd rfl hne
  | cons c cs ih =>
    obtain ⟨v, vs', rfl⟩ : ∃ v vs', vs = v :: vs' := by
      cases vs with
      | nil => simp at hv
      | cons v vs' => exact ⟨v, vs', rfl⟩
    simp only [List.map_cons, List.cons.injEq] at hv
    obtain ⟨hv1, hv2⟩ := hv
    obtain ⟨hp, hs⟩ := h c (by simp)
    have hz : nul ∉ squeeze c := squeeze_nul (fun hh => (hp _ hh).2.2.2.2.2 rfl)
    have hnum : conv (atof (squeeze c)) = .ok v := hv1
    cases cs with
    | nil =>
      obtain rfl : vs' = [] := by simpa using hv2.symm
      show vectorLoop cap conv (c ++ [']']) (hold 1024 []) out = _
      rw [vectorLoop_cell cap conv c _ hp [] out (by simp) (by simpa using hs), List.nil_append,
        vectorLoop_sep cap conv (Or.inr rfl) _ _ _ hz hs, hnum, okb']
      by_cases hc : out.length < cap
      · rw [if_pos hc, if_pos (by simp; omega)]; rfl
      · rw [if_neg hc, if_neg (by simp; omega)]
    | cons d ds =>
      show vectorLoop cap conv (c ++ ',' :: ' ' :: cells (d :: ds)) (hold 1024 []) out = _
      rw [vectorLoop_cell cap conv c _ hp [] out (by simp) (by simpa using hs), List.nil_append,
        vectorLoop_sep cap conv (Or.inl rfl) _ _ _ hz hs, hnum, okb']
      have hsk : ∀ o, vectorLoop cap conv (' ' :: cells (d :: ds)) (hold 1024 []) o =
          vectorLoop cap conv (cells (d :: ds)) (hold 1024 []) o := fun o => by
        rw [vectorLoop, if_pos (Or.inr rfl)]
      by_cases hc : out.length < cap
      · rw [if_pos hc, hsk, ih (by simp) (fun x hx => h x (by simp [hx])) vs' hv2]
        simp only [List.length_append, List.length_cons, List.length_nil]
        by_cases hc2 : out.length + (ds.length + 1 + 1) ≤ cap
        · rw [if_pos (by omega), if_pos hc2]; simp
        · rw [if_neg (by omega), if_neg hc2]
      · rw [if_neg hc, if_neg (by simp only [List.length_cons]; omega)]

/-- A vector `[a, b, ...]`: with at most `n` numbers these are stored and the other elements stay zero, with more
the program writes beyond the array. -/
theorem C124_vector_partial {α : Type} (n : Nat) (zero : α) (conv : ℚ → Except Fault α) (cs : List Str) (hne : cs ≠ [])
    (h : ∀ c ∈ cs, NumOk c) (vs : List α) (hv : cs.map (fun c => conv (number c)) = vs.map .ok) :
    (cs.length ≤ n → vectorLine n zero conv (vec cs) = .ok (vs ++ List.replicate (n - vs.length) zero)) ∧
    (n < cs.length → vectorLine n zero conv (vec cs) = .error .oob) := by
  have e : vectorLoop n conv (vec cs) (List.replicate 1024 nul) [] =
      if cs.length ≤ n then .ok vs else .error .oob := by
    rw [vec, vectorLoop, if_pos (Or.inl rfl), blank_hold, vectorLoop_cells n conv cs hne h vs hv]
    simp
  unfold vectorLine
  rw [e]
  refine ⟨fun hl => ?_, fun hl => ?_⟩
  · rw [if_pos hl]; rfl
  · rw [if_neg (by omega)]; rfl

end Yac.Gimbal
