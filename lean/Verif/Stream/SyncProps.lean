import Verif.Stream.SyncModel
import Verif.AprilGrid.Lemmas
import Mathlib.Data.List.Induction
import Mathlib.Data.List.Forall2
import Mathlib.Tactic.Linarith
import Mathlib.Tactic.FieldSimp
import Mathlib.Tactic.Ring
import Mathlib.Tactic.NormNum
import Mathlib.Algebra.CharZero.Defs
import Mathlib.Data.Rat.Cast.CharZero
import Mathlib.Algebra.Order.Ring.Abs
import Mathlib.Tactic.LinearCombination
import Mathlib.Tactic.FinCases
import Mathlib.Data.Fintype.Basic
import Mathlib.Data.Fintype.Fin
import Mathlib.Data.List.TakeWhile
import Mathlib.Data.Fin.VecNotation

/-!
# C26: stream synchronisation
-/

namespace Yac.Stream

section Poses
variable {P : Type}

/-- Samples in strictly increasing time order. -/
def Inc {α : Type} (l : List (Int × α)) : Prop := l.Pairwise (fun a b => a.1 < b.1)

/-- `out` is the interpolation at time `r` between two samples around `r` (shifted by the
threshold, `thr` seconds) with no other sample strictly between them than one exactly at the
shifted time. -/
def Interpolated (interp : P → P → ℚ → P) (samples : List (Int × P)) (thr : ℚ) (r : Int) (out : P) :
    Prop :=
  ∃ a ∈ samples, ∃ b ∈ samples, (a.1 : ℚ) ≤ r + thr * 10 ^ 9 ∧ r + thr * 10 ^ 9 < b.1 ∧
    (∀ c ∈ samples, a.1 < c.1 → c.1 < b.1 → (c.1 : ℚ) = r + thr * 10 ^ 9) ∧
    out = interp a.2 b.2 (((r : ℚ) - a.1) / ((b.1 : ℚ) - a.1))

/-- Every request is followed by a sample later than the threshold, and such a sample comes no
later than the next request plus the threshold. -/
def Separated (samples : List (Int × P)) (thr : ℚ) : List Int → Prop
  | [] => True
  | [r] => ∃ s ∈ samples, (r : ℚ) + thr * 10 ^ 9 < s.1
  | r :: r' :: rs => (∃ s ∈ samples, (r : ℚ) + thr * 10 ^ 9 < s.1 ∧ (s.1 : ℚ) ≤ r' + thr * 10 ^ 9) ∧
      Separated samples thr (r' :: rs)

theorem diff_lt (t r : Int) (thr : ℚ) :
    (((t - r : Int) : ℚ) * (1 / 10 ^ 9) < thr ↔ (t : ℚ) < r + thr * 10 ^ 9) ∧
    (thr < ((t - r : Int) : ℚ) * (1 / 10 ^ 9) ↔ (r : ℚ) + thr * 10 ^ 9 < t) := by
  push_cast
  constructor <;> constructor <;> intro h <;> linarith

theorem alpha_eq (r t0 t : Int) :
    ((r - t0 : Int) : ℚ) * (1 / 10 ^ 9) / (((t - t0 : Int) : ℚ) * (1 / 10 ^ 9)) =
      ((r : ℚ) - t0) / ((t : ℚ) - t0) := by
  push_cast
  rw [mul_div_mul_right]
  norm_num

/-- The loop never reads past the requests, and serves at most one request per sample. -/
theorem interpLoop_safe (interp : P → P → ℚ → P) (thr : ℚ) (s : List (Int × P)) (rs : List Int)
    (t0 : Int) (p0 : P) (out : List P) (hr : rs ≠ []) :
    ∃ res, interpLoop interp thr s rs t0 p0 out = .ok res ∧
      res.length ≤ out.length + rs.length ∧ res.length ≤ out.length + s.length := by
  induction s generalizing rs t0 p0 out with
  | nil => exact ⟨out, rfl, by omega, by simp⟩
  | cons x s ih =>
    obtain ⟨t, p⟩ := x
    obtain ⟨r, rs', rfl⟩ := List.exists_cons_of_ne_nil hr
    simp only [interpLoop]
    split_ifs with h1 h2 h3
    · obtain ⟨res, e, l1, l2⟩ := ih (r :: rs') t p out (by simp)
      exact ⟨res, e, l1, by simp; omega⟩
    · exact ⟨_, rfl, by simp, by simp⟩
    · obtain ⟨res, e, l1, l2⟩ := ih rs' t p (out ++ [interp p0 p _]) h3
      refine ⟨res, e, ?_, ?_⟩
      · simp at l1 ⊢; omega
      · simp at l2 ⊢; omega
    · obtain ⟨res, e, l1, l2⟩ := ih (r :: rs') t0 p0 out (by simp)
      exact ⟨res, e, l1, by simp; omega⟩

/-- **C26 (`interp_poses` is memory safe).**  Given non-empty sequences and a first request after
the first sample it always returns, with at most one pose per request and (for a non-negative
threshold) fewer poses than samples. -/
theorem C26_interp_safe (interp : P → P → ℚ → P) (idp : P) (t : Int) (p : P) (s : List (Int × P))
    (r : Int) (rs : List Int) (thr : ℚ) (hthr : 0 ≤ thr) (h : t < r) :
    ∃ res, interpPoses interp idp ((t, p) :: s) (r :: rs) thr = .ok res ∧
      res.length ≤ (r :: rs).length ∧ res.length ≤ s.length := by
  have hlt : ((t - r : Int) : ℚ) * (1 / 10 ^ 9) < thr := by
    rw [(diff_lt t r thr).1]
    have : (t : ℚ) < r := by exact_mod_cast h
    have : 0 ≤ thr * 10 ^ 9 := by positivity
    linarith
  simp only [interpPoses, if_pos h, interpLoop, if_pos hlt]
  obtain ⟨res, e, l1, l2⟩ := interpLoop_safe interp thr s (r :: rs) t p [] (by simp)
  exact ⟨res, e, by simpa using l1, by simpa using l2⟩

theorem interpLoop_spec (interp : P → P → ℚ → P) (thr : ℚ) (pre s : List (Int × P))
    (hinc : Inc (pre ++ s)) (r : Int) (rs : List Int) (a : Int × P) (ha : a ∈ pre)
    (har : (a.1 : ℚ) ≤ r + thr * 10 ^ 9)
    (hpre : ∀ c ∈ pre, a.1 < c.1 → (c.1 : ℚ) = r + thr * 10 ^ 9)
    (hsep : Separated (pre ++ s) thr (r :: rs)) (out : List P) :
    ∃ res, interpLoop interp thr s (r :: rs) a.1 a.2 out = .ok (out ++ res) ∧
      List.Forall₂ (Interpolated interp (pre ++ s) thr) (r :: rs) res := by
  have hple : ∀ c ∈ pre, (c.1 : ℚ) ≤ r + thr * 10 ^ 9 := by
    intro c hc
    by_cases h : a.1 < c.1
    · exact le_of_eq (hpre c hc h)
    · have : (c.1 : ℚ) ≤ a.1 := by exact_mod_cast not_lt.mp h
      linarith
  induction s generalizing pre r rs a out with
  | nil =>
    exfalso
    rw [List.append_nil] at hsep
    cases rs with
    | nil =>
      obtain ⟨x, hx, h⟩ := hsep
      have := hple x hx; linarith
    | cons r' rs =>
      obtain ⟨⟨x, hx, h, _⟩, _⟩ := hsep
      have := hple x hx; linarith
  | cons x s ih =>
    obtain ⟨t, p⟩ := x
    have e : pre ++ (t, p) :: s = (pre ++ [(t, p)]) ++ s := by simp
    have hpt : ∀ c ∈ pre, c.1 < t := fun c hc =>
      (List.pairwise_append.mp hinc).2.2 c hc (t, p) (by simp)
    have hts : ∀ c ∈ s, t < c.1 := fun c hc =>
      (List.pairwise_cons.mp (List.pairwise_append.mp hinc).2.1).1 c hc
    simp only [interpLoop]
    obtain ⟨d1, d2⟩ := diff_lt t r thr
    by_cases c1 : (t : ℚ) < r + thr * 10 ^ 9
    · rw [if_pos (d1.mpr c1)]
      have := ih (pre ++ [(t, p)]) (by rw [← e]; exact hinc) r rs (t, p) (by simp) c1.le
        (by intro c hc hlt
            rcases List.mem_append.mp hc with hc | hc
            · have := hpt c hc; simp only at hlt; omega
            · simp only [List.mem_singleton] at hc; subst hc; simp at hlt)
        (by rw [← e]; exact hsep) out
        (by intro c hc
            rcases List.mem_append.mp hc with hc | hc
            · exact hple c hc
            · simp only [List.mem_singleton] at hc; subst hc; exact c1.le)
      rw [← e] at this
      exact this
    · rw [if_neg (fun h => c1 (d1.mp h))]
      by_cases c2 : (r : ℚ) + thr * 10 ^ 9 < t
      · rw [if_pos (d2.mpr c2), alpha_eq]
        have hI : Interpolated interp (pre ++ (t, p) :: s) thr r
            (interp a.2 p (((r : ℚ) - a.1) / ((t : ℚ) - a.1))) := by
          refine ⟨a, by simp [ha], (t, p), by simp, har, c2, fun c hc h1 h2 => ?_, rfl⟩
          rcases List.mem_append.mp hc with hc | hc
          · exact hpre c hc h1
          · rcases List.mem_cons.mp hc with rfl | hc
            · simp at h2
            · have := hts c hc; simp only at h2; omega
        cases rs with
        | nil => exact ⟨_, if_pos rfl, .cons hI .nil⟩
        | cons r' rs =>
          rw [if_neg (by simp)]
          obtain ⟨⟨x, hx, hx1, hx2⟩, hsep'⟩ := hsep
          have htr : (t : ℚ) ≤ r' + thr * 10 ^ 9 := by
            rcases List.mem_append.mp hx with hx | hx
            · have := hple x hx; linarith
            · rcases List.mem_cons.mp hx with rfl | hx
              · exact hx2
              · have : (t : ℚ) < x.1 := by exact_mod_cast hts x hx
                linarith
          have := ih (pre ++ [(t, p)]) (by rw [← e]; exact hinc) r' rs (t, p) (by simp) htr
            (by intro c hc hlt
                rcases List.mem_append.mp hc with hc | hc
                · have := hpt c hc; simp only at hlt; omega
                · simp only [List.mem_singleton] at hc; subst hc; simp at hlt)
            (by rw [← e]; exact hsep')
            (out ++ [interp a.2 p (((r : ℚ) - a.1) / ((t : ℚ) - a.1))])
            (by intro c hc
                rcases List.mem_append.mp hc with hc | hc
                · have := hple c hc; linarith
                · simp only [List.mem_singleton] at hc; subst hc; exact htr)
          rw [← e] at this
          obtain ⟨res, h1, h2⟩ := this
          exact ⟨_ :: res, by rw [h1]; simp, .cons hI h2⟩
      · rw [if_neg (fun h => c2 (d2.mp h))]
        have heq : (t : ℚ) = r + thr * 10 ^ 9 := le_antisymm (not_lt.mp c2) (not_lt.mp c1)
        have := ih (pre ++ [(t, p)]) (by rw [← e]; exact hinc) r rs a (by simp [ha]) har
          (by intro c hc hlt
              rcases List.mem_append.mp hc with hc | hc
              · exact hpre c hc hlt
              · simp only [List.mem_singleton] at hc; subst hc; exact heq)
          (by rw [← e]; exact hsep) out
          (by intro c hc
              rcases List.mem_append.mp hc with hc | hc
              · exact hple c hc
              · simp only [List.mem_singleton] at hc; subst hc; exact heq.le)
        rw [← e] at this
        exact this

/-- **C26, `interp_poses` (partial).**  When between any two consecutive requests there is a
sample later than the first by more than the threshold and no later than the second plus the
threshold, and the last request is followed by a sample, one pose comes back per request, in
order, each interpolated between the samples around it. -/
theorem C26_interp_partial (interp : P → P → ℚ → P) (idp : P) (samples : List (Int × P))
    (req : List Int) (thr : ℚ) (hthr : 0 ≤ thr) (hinc : Inc samples)
    (hs : ∃ t p s r rs, samples = (t, p) :: s ∧ req = r :: rs ∧ t < r)
    (hsep : Separated samples thr req) :
    ∃ res, interpPoses interp idp samples req thr = .ok res ∧
      List.Forall₂ (Interpolated interp samples thr) req res := by
  obtain ⟨t, p, s, r, rs, rfl, rfl, htr⟩ := hs
  have hlt' : (t : ℚ) < r + thr * 10 ^ 9 := by
    have : (t : ℚ) < r := by exact_mod_cast htr
    have : 0 ≤ thr * 10 ^ 9 := by positivity
    linarith
  have hlt : ((t - r : Int) : ℚ) * (1 / 10 ^ 9) < thr := (diff_lt t r thr).1.mpr hlt'
  simp only [interpPoses, if_pos htr, interpLoop, if_pos hlt]
  have := interpLoop_spec interp thr [(t, p)] s hinc r rs (t, p) (by simp) hlt'.le
    (by intro c hc h; simp only [List.mem_singleton] at hc; subst hc; simp at h) hsep []
  simpa using this

/-- **C26 refuted (`interp_poses`).**  Two requests between the same two samples: only one pose is
returned, although both requests lie inside the data range. -/
theorem C26_interp_refuted (interp : P → P → ℚ → P) (idp pa pb : P) (ta r r' tb : Int)
    (h1 : ta < r) (h2 : r < r') (h3 : r' < tb) :
    ∃ x, interpPoses interp idp [(ta, pa), (tb, pb)] [r, r'] 0 = .ok [x] := by
  obtain ⟨res, e, l1, l2⟩ := C26_interp_safe interp idp ta pa [(tb, pb)] r [r'] 0 (le_refl 0) h1
  have c1 : ((ta - r : Int) : ℚ) * (1 / 10 ^ 9) < 0 := by
    rw [(diff_lt ta r 0).1]; have : (ta : ℚ) < r := by exact_mod_cast h1
    linarith
  have c2 : ¬ ((tb - r : Int) : ℚ) * (1 / 10 ^ 9) < 0 := by
    rw [(diff_lt tb r 0).1]; have : (r : ℚ) < tb := by exact_mod_cast lt_trans h2 h3
    linarith
  have c3 : (0 : ℚ) < ((tb - r : Int) : ℚ) * (1 / 10 ^ 9) := by
    rw [(diff_lt tb r 0).2]; have : (r : ℚ) < tb := by exact_mod_cast lt_trans h2 h3
    linarith
  simp only [interpPoses, if_pos h1, interpLoop, if_pos c1, if_neg c2, if_pos c3]
  exact ⟨_, by rw [if_neg (by simp)]; rfl⟩

/-- Witness for `C26_interp_partial`: requests separated by samples. -/
example : interpPoses (fun a b t => a + (b - a) * t) (0 : ℚ)
    [(0, 0), (10, 100), (20, 200), (30, 300)] [5, 12, 25] 0 = .ok [50, 120, 250] := by decide +kernel

/-- Witness: the hypotheses hold for these requests. -/
example : Separated [((0 : Int), (0 : ℚ)), (10, 100), (20, 200), (30, 300)] 0 [5, 12, 25] := by
  refine ⟨⟨(10, 100), by simp, by norm_num, by norm_num⟩,
    ⟨(20, 200), by simp, by norm_num, by norm_num⟩, ⟨(30, 300), by simp, by norm_num⟩⟩

/-! ### `closest_poses` -/

/-- **C26 refuted (`closest_poses`).**  Whenever the call returns, at least one target was not
served: serving the last target makes the code read past the end of the targets. -/
theorem C26_closest_refuted (samples : List (Int × P)) (targets : List Int) (res : List P)
    (h : closestPoses samples targets = .ok res) : res.length < targets.length := by
  have key : ∀ (s : List (Int × P)) (gs : List Int) (dc : ℚ) (pc : P) (out res : List P), gs ≠ [] →
      closestLoop s gs dc pc out = .ok res → res.length < out.length + gs.length := by
    intro s
    induction s with
    | nil =>
      intro gs dc pc out res hg h
      simp only [closestLoop, Except.ok.injEq] at h
      subst h
      have := List.length_pos_iff.mpr hg
      omega
    | cons x s ih =>
      intro gs dc pc out res hg h
      obtain ⟨t, p⟩ := x
      obtain ⟨g, gs', rfl⟩ := List.exists_cons_of_ne_nil hg
      simp only [closestLoop] at h
      split_ifs at h with h1 h2
      · exact ih _ _ _ _ _ (by simp) h
      · cases gs' with
        | nil => cases h
        | cons g' gs'' =>
          have := ih _ _ _ _ _ (by simp) h
          simp at this ⊢; omega
      · exact ih _ _ _ _ _ (by simp) h
  cases samples with
  | nil => simp [closestPoses] at h
  | cons x s =>
    obtain ⟨t, p⟩ := x
    cases targets with
    | nil => simp [closestPoses] at h
    | cons g gs =>
      simp only [closestPoses] at h
      split_ifs at h
      have := key _ _ _ _ _ _ (by simp) h
      simpa using this

theorem tdiff_mono {a b g : Int} (h : g ≤ a) (h' : a ≤ b) : tdiff a g ≤ tdiff b g := by
  unfold tdiff
  have h1 : (0 : ℚ) ≤ ((a - g : Int) : ℚ) := by exact_mod_cast sub_nonneg.mpr h
  have h2 : ((a - g : Int) : ℚ) ≤ ((b - g : Int) : ℚ) := by exact_mod_cast sub_le_sub_right h' g
  rw [abs_of_nonneg (by positivity), abs_of_nonneg (mul_nonneg (le_trans h1 h2) (by norm_num))]
  exact mul_le_mul_of_nonneg_right h2 (by norm_num)

theorem tdiff_anti {a b g : Int} (h : b ≤ g) (h' : a ≤ b) : tdiff b g ≤ tdiff a g := by
  unfold tdiff
  have h1 : ((b - g : Int) : ℚ) ≤ 0 := by exact_mod_cast sub_nonpos.mpr h
  have h2 : ((a - g : Int) : ℚ) ≤ ((b - g : Int) : ℚ) := by exact_mod_cast sub_le_sub_right h' g
  rw [abs_of_nonpos (mul_nonpos_of_nonpos_of_nonneg h1 (by norm_num)),
    abs_of_nonpos (mul_nonpos_of_nonpos_of_nonneg (le_trans h2 h1) (by norm_num))]
  have := mul_le_mul_of_nonneg_right h2 (by norm_num : (0 : ℚ) ≤ 1 / 10 ^ 9)
  linarith

/-- **C26, `closest_poses` (partial).**  The first pose returned belongs to a sample at minimal
distance in time from the first target, among all samples. -/
theorem C26_closest_partial (samples : List (Int × P)) (g : Int) (gs : List Int) (res : List P)
    (hinc : Inc samples) (h : closestPoses samples (g :: gs) = .ok res) (x : P)
    (hx : res.head? = some x) :
    ∃ c ∈ samples, x = c.2 ∧ ∀ d ∈ samples, |c.1 - g| ≤ |d.1 - g| := by
  have conv : ∀ a b : Int, tdiff a g ≤ tdiff b g ↔ |a - g| ≤ |b - g| := by
    intro a b
    unfold tdiff
    rw [abs_mul, abs_mul, mul_le_mul_iff_left₀ (by norm_num)]
    norm_cast
  have hd : ∀ (s : List (Int × P)) (gs : List Int) (dc : ℚ) (pc : P) (out res : List P) (y : P),
      out.head? = some y → closestLoop s gs dc pc out = .ok res → res.head? = some y := by
    intro s
    induction s with
    | nil =>
      intro gs dc pc out res y hy h
      simp only [closestLoop, Except.ok.injEq] at h
      subst h; exact hy
    | cons z s ih =>
      intro gs dc pc out res y hy h
      obtain ⟨t, p⟩ := z
      cases gs with
      | nil => cases h
      | cons g gs' =>
        simp only [closestLoop] at h
        split_ifs at h with h1 h2
        · exact ih _ _ _ _ _ _ hy h
        · cases gs' with
          | nil => cases h
          | cons g' gs'' =>
            refine ih _ _ _ _ _ y ?_ h
            cases out with
            | nil => simp at hy
            | cons o out => simpa using hy
        · exact ih _ _ _ _ _ _ hy h
  have key : ∀ (s pre : List (Int × P)) (c : Int × P), Inc (pre ++ s) → c ∈ pre →
      (∀ d ∈ pre, tdiff c.1 g ≤ tdiff d.1 g) → ∀ res x,
      closestLoop s (g :: gs) (tdiff c.1 g) c.2 [] = .ok res → res.head? = some x →
      ∃ c ∈ pre ++ s, x = c.2 ∧ ∀ d ∈ pre ++ s, tdiff c.1 g ≤ tdiff d.1 g := by
    intro s
    induction s with
    | nil =>
      intro pre c _ _ _ res x h hx
      simp only [closestLoop, Except.ok.injEq] at h
      subst h; simp at hx
    | cons z s ih =>
      intro pre c hinc hc hmin res x h hx
      obtain ⟨t, p⟩ := z
      have e : pre ++ (t, p) :: s = (pre ++ [(t, p)]) ++ s := by simp
      have hpt : ∀ d ∈ pre, d.1 < t := fun d hd =>
        (List.pairwise_append.mp hinc).2.2 d hd (t, p) (by simp)
      have hts : ∀ d ∈ s, t < d.1 := fun d hd =>
        (List.pairwise_cons.mp (List.pairwise_append.mp hinc).2.1).1 d hd
      simp only [closestLoop] at h
      split_ifs at h with h1 h2
      · have := ih (pre ++ [(t, p)]) (t, p) (by rw [← e]; exact hinc) (by simp)
          (by intro d hd
              rcases List.mem_append.mp hd with hd | hd
              · exact le_trans h1.le (hmin d hd)
              · simp only [List.mem_singleton] at hd; rw [hd]) res x h hx
        rw [← e] at this; exact this
      · cases gs with
        | nil => cases h
        | cons g' gs'' =>
          have hy := hd _ _ _ _ _ _ c.2 (by simp) h
          rw [hx] at hy
          obtain rfl := Option.some.inj hy
          -- the current sample is farther than an earlier one, so it is past the target
          have hgt : g < t := by
            by_contra hle
            have := tdiff_anti (not_lt.mp hle) (hpt c hc).le
            linarith
          refine ⟨c, by simp [hc], rfl, fun d hd => ?_⟩
          rcases List.mem_append.mp hd with hd | hd
          · exact hmin d hd
          · rcases List.mem_cons.mp hd with rfl | hd
            · exact h2.le
            · exact le_trans h2.le (tdiff_mono hgt.le (hts d hd).le)
      · have heq : tdiff c.1 g = tdiff t g := le_antisymm (not_lt.mp h1) (not_lt.mp h2)
        have := ih (pre ++ [(t, p)]) c (by rw [← e]; exact hinc) (by simp [hc])
          (by intro d hd
              rcases List.mem_append.mp hd with hd | hd
              · exact hmin d hd
              · simp only [List.mem_singleton] at hd; rw [hd]; exact heq.le) res x h hx
        rw [← e] at this; exact this
  cases samples with
  | nil => simp [closestPoses] at h
  | cons z s =>
    obtain ⟨t, p⟩ := z
    simp only [closestPoses] at h
    split_ifs at h
    obtain ⟨c, hc, h1, h2⟩ := key s [(t, p)] (t, p) hinc (by simp)
      (by intro d hd; simp only [List.mem_singleton] at hd; rw [hd]) res x h hx
    exact ⟨c, hc, h1, fun d hd => (conv _ _).mp (h2 d hd)⟩

/-- **C26 refuted (`closest_poses`).**  Later targets may be served with a sample that is not the
closest: a sample exactly at the second target is passed over for a later one. -/
theorem C26_closest_wrong_refuted : closestPoses
    [((0 : Int), (0 : Int)), (10, 10), (20, 20), (40, 40)] [9, 10, 60] = .ok [10, 20] := by
  decide +kernel

example : closestPoses [((0 : Int), (0 : Int)), (10, 10), (20, 20)] [9] = .error .oob := by
  decide +kernel

end Poses

section Data
variable {K : Type} [Field K]

/-! ### `lerp_data` -/

theorem lerpInner_eq (t0 : Int) (v0 : Fin 3 → K) (t1 : Int) (v1 : Fin 3 → K) (rs : List Int)
    (out : List (Pt K)) : lerpInner t0 v0 t1 v1 rs out =
      (rs.dropWhile (fun r => decide (r ≤ t1)), out ++ (rs.takeWhile (fun r => decide (r ≤ t1))).map
        (fun r => (r, lerpV v0 v1 ((((r - t0 : Int) : K) * (1 / 10 ^ 9)) /
          (((t1 - t0 : Int) : K) * (1 / 10 ^ 9)))))) := by
  induction rs generalizing out with
  | nil => simp [lerpInner]
  | cons r rs ih =>
    simp only [lerpInner]
    by_cases h : t1 < r
    · rw [if_pos h]; simp [h]
    · rw [if_neg h, ih]
      simp [not_lt.mp h]

/-- `v` is the affine combination, at time `r`, of two samples around `r`. -/
def Between [CharZero K] (samples : List (Pt K)) (q : Pt K) : Prop :=
  ∃ a ∈ samples, ∃ b ∈ samples, a.1 ≤ q.1 ∧ q.1 ≤ b.1 ∧ a.1 < b.1 ∧
    ∀ i, q.2 i = a.2 i + (b.2 i - a.2 i) * (((q.1 : K) - a.1) / ((b.1 : K) - a.1))

theorem lerpV_eq [CharZero K] (a b : Fin 3 → K) (r t0 t1 : Int) (i : Fin 3) :
    lerpV a b ((((r - t0 : Int) : K) * (1 / 10 ^ 9)) / (((t1 - t0 : Int) : K) * (1 / 10 ^ 9))) i =
      a i + (b i - a i) * (((r : K) - t0) / ((t1 : K) - t0)) := by
  have : (1 / 10 ^ 9 : K) ≠ 0 := by norm_num
  rw [mul_div_mul_right _ _ this]
  simp only [lerpV]
  push_cast
  ring

theorem lerpLoop_spec [CharZero K] (pre s : List (Pt K)) (hinc : Inc (pre ++ s)) (rs : List Int)
    (hrs : rs.Pairwise (· < ·)) (a : Pt K) (ha : a ∈ pre) (har : ∀ r ∈ rs, a.1 ≤ r)
    (hlast : ∀ r ∈ rs, s = [] → ∀ c ∈ pre, c.1 ≤ r)
    (hprev : ∀ r ∈ rs, ∀ c ∈ pre, c.1 ≤ r)
    (out res : List (Pt K))
    (h : lerpLoop false s rs a.1 a.2 out = .ok res) :
    ∃ ext : List (Pt K), res = out ++ ext ∧ (∃ rest, ext.map (·.1) ++ rest = rs ∧
        ∀ r ∈ rest, ∀ c ∈ pre ++ s, c.1 ≤ r) ∧
      ∀ q ∈ ext, Between (pre ++ s) q := by
  induction s generalizing pre rs a out with
  | nil =>
    simp only [lerpLoop, Except.ok.injEq] at h
    exact ⟨[], by simp [h], ⟨rs, by simp, by simpa using hprev⟩, by simp⟩
  | cons x s ih =>
    obtain ⟨t, d⟩ := x
    have e : pre ++ (t, d) :: s = (pre ++ [(t, d)]) ++ s := by simp
    have hpt : ∀ c ∈ pre, c.1 < t := fun c hc =>
      (List.pairwise_append.mp hinc).2.2 c hc (t, d) (by simp)
    cases rs with
    | nil => cases h
    | cons r rs' =>
      simp only [lerpLoop, Bool.false_eq_true, if_false] at h
      split_ifs at h with h1
      · rw [lerpInner_eq] at h
        simp only at h
        set rs := r :: rs' with hrsdef
        have hdrop : ∀ r ∈ rs.dropWhile (fun r => decide (r ≤ t)), t < r := by
          intro q hq
          have hs := hrs.sublist (List.dropWhile_sublist (fun r => decide (r ≤ t)))
          cases hd : rs.dropWhile (fun r => decide (r ≤ t)) with
          | nil => rw [hd] at hq; simp at hq
          | cons y ys =>
            have hy : ¬ (fun r => decide (r ≤ t)) y = true := by
              have := List.head?_dropWhile_not (fun r => decide (r ≤ t)) rs
              rw [hd] at this
              simpa using this
            rw [hd] at hq hs
            simp at hy
            rcases List.mem_cons.mp hq with rfl | hq
            · exact hy
            · exact lt_trans hy ((List.pairwise_cons.mp hs).1 q hq)
        have key := ih (pre ++ [(t, d)]) (by rw [← e]; exact hinc)
          (rs.dropWhile (fun r => decide (r ≤ t)))
          (hrs.sublist (List.dropWhile_sublist _)) (t, d) (by simp)
          (fun q hq => (hdrop q hq).le)
          (fun q hq _ c hc => by
            rcases List.mem_append.mp hc with hc | hc
            · have := hpt c hc; have := hdrop q hq; omega
            · simp only [List.mem_singleton] at hc; subst hc; exact (hdrop q hq).le)
          (fun q hq c hc => by
            rcases List.mem_append.mp hc with hc | hc
            · have := hpt c hc; have := hdrop q hq; omega
            · simp only [List.mem_singleton] at hc; subst hc; exact (hdrop q hq).le)
          _ h
        rw [← e] at key
        obtain ⟨ext, k1, ⟨rest, k2, k3⟩, k4⟩ := key
        refine ⟨_, by rw [k1, List.append_assoc], ⟨rest, ?_, k3⟩, fun q hq => ?_⟩
        · rw [List.map_append, List.append_assoc, k2, List.map_map]
          have : (rs.takeWhile (fun r => decide (r ≤ t))).map
            ((fun x => x.1) ∘ fun r => (r, lerpV a.2 d ((((r - a.1 : Int) : K) * (1 / 10 ^ 9)) /
              (((t - a.1 : Int) : K) * (1 / 10 ^ 9))))) = rs.takeWhile (fun r => decide (r ≤ t)) := by
            rw [show ((fun x : Pt K => x.1) ∘ fun r : Int => (r, lerpV a.2 d
              ((((r - a.1 : Int) : K) * (1 / 10 ^ 9)) / (((t - a.1 : Int) : K) * (1 / 10 ^ 9))))) =
              id from rfl, List.map_id]
          rw [this, List.takeWhile_append_dropWhile]
        · rcases List.mem_append.mp hq with hq | hq
          · obtain ⟨y, hy, rfl⟩ := List.mem_map.mp hq
            have hyt : y ≤ t := by
              have := List.mem_takeWhile_imp hy
              simpa using this
            have hyr : y ∈ rs := (List.takeWhile_sublist _).subset hy
            exact ⟨a, by simp [ha], (t, d), by simp, har y hyr, hyt, hpt a ha,
              fun i => lerpV_eq _ _ _ _ _ _⟩
          · exact k4 q hq
      · have hle : t ≤ r := by omega
        have hall : ∀ q ∈ r :: rs', t ≤ q := by
          intro q hq
          rcases List.mem_cons.mp hq with rfl | hq
          · exact hle
          · exact le_trans hle ((List.pairwise_cons.mp hrs).1 q hq).le
        have key := ih (pre ++ [(t, d)]) (by rw [← e]; exact hinc) (r :: rs') hrs a (by simp [ha])
          har
          (fun q hq _ c hc => by
            rcases List.mem_append.mp hc with hc | hc
            · exact hprev q hq c hc
            · simp only [List.mem_singleton] at hc; subst hc; exact hall q hq)
          (fun q hq c hc => by
            rcases List.mem_append.mp hc with hc | hc
            · exact hprev q hq c hc
            · simp only [List.mem_singleton] at hc; subst hc; exact hall q hq) out h
        rw [← e] at key
        exact key

/-- **C26, `lerp_data` (partial).**  If the call returns, the requests served are an initial part
of the requested timestamps, in order, containing at least all those before the last sample;
each value is the affine combination of two samples around the request (not necessarily
adjacent ones). -/
theorem C26_lerp_partial [CharZero K] (samples : List (Pt K)) (req : List Int)
    (hinc : Inc samples) (hreq : req.Pairwise (· < ·))
    (hfirst : ∀ r ∈ req, ∀ a ∈ samples.head?, a.1 ≤ r) (res : List (Pt K))
    (h : lerpData req samples false = .ok res) :
    (∃ rest, res.map (·.1) ++ rest = req ∧ ∀ r ∈ rest, ∀ c ∈ samples, c.1 ≤ r) ∧
    ∀ q ∈ res, Between samples q := by
  cases samples with
  | nil => cases h
  | cons x s =>
    obtain ⟨t0, v0⟩ := x
    have h0 : ∀ r ∈ req, t0 ≤ r := fun r hr => hfirst r hr (t0, v0) (by simp)
    obtain ⟨ext, h1, h2, h3⟩ := lerpLoop_spec [(t0, v0)] s hinc req hreq (t0, v0) (by simp) h0
      (fun r hr _ c hc => by simp only [List.mem_singleton] at hc; subst hc; exact h0 r hr)
      (fun r hr c hc => by simp only [List.mem_singleton] at hc; subst hc; exact h0 r hr)
      [] res h
    rw [List.nil_append] at h1
    subst h1
    exact ⟨h2, h3⟩

/-- **C26, `lerp_data`.**  A signal that varies linearly with time is reproduced exactly at every
served request. -/
theorem C26_lerp_linear [CharZero K] (samples : List (Pt K)) (req : List Int)
    (hinc : Inc samples) (hreq : req.Pairwise (· < ·))
    (hfirst : ∀ r ∈ req, ∀ a ∈ samples.head?, a.1 ≤ r) (res : List (Pt K))
    (h : lerpData req samples false = .ok res) (A B : Fin 3 → K)
    (hlin : ∀ c ∈ samples, ∀ i, c.2 i = A i + B i * c.1) :
    ∀ q ∈ res, ∀ i, q.2 i = A i + B i * q.1 := by
  intro q hq i
  obtain ⟨a, ha, b, hb, _, _, hab, hv⟩ :=
    (C26_lerp_partial samples req hinc hreq hfirst res h).2 q hq
  rw [hv i, hlin a ha i, hlin b hb i]
  have hne : ((b.1 : K) - a.1) ≠ 0 := by
    intro e
    have : (b.1 : K) = a.1 := by linear_combination e
    have := Int.cast_injective this
    omega
  field_simp
  ring

/-- **C26, `lerp_data` (memory safety, partial).**  The call returns if some request comes after
all samples but the last. -/
theorem C26_lerp_safe_partial (samples : List (Pt K)) (req : List Int) (keep : Bool)
    (hne : samples ≠ []) (r : Int) (hr : r ∈ req)
    (h : ∀ c ∈ samples.dropLast, c.1 < r) : ∃ res, lerpData req samples keep = .ok res := by
  have key : ∀ (s : List (Pt K)) (rs : List Int) (t0 : Int) (v0 : Fin 3 → K) (out : List (Pt K)),
      r ∈ rs → (∀ c ∈ s.dropLast, c.1 < r) → ∃ res, lerpLoop keep s rs t0 v0 out = .ok res := by
    intro s
    induction s with
    | nil => intro rs t0 v0 out _ _; exact ⟨out, rfl⟩
    | cons x s ih =>
      intro rs t0 v0 out hr hc
      obtain ⟨t, d⟩ := x
      cases rs with
      | nil => simp at hr
      | cons q rs =>
        simp only [lerpLoop]
        cases s with
        | nil =>
          split_ifs <;> exact ⟨_, rfl⟩
        | cons y s =>
          have htr : t < r := hc (t, d) (by simp)
          have hc' : ∀ c ∈ (y :: s).dropLast, c.1 < r := fun c hcm => hc c (by
            rw [List.dropLast_cons_of_ne_nil (by simp)]; simp [hcm])
          split_ifs
          · refine ih _ _ _ _ ?_ hc'
            rw [lerpInner_eq]
            simp only
            have hsplit := List.takeWhile_append_dropWhile (p := fun x => decide (x ≤ t)) (l := q :: rs)
            rw [← hsplit] at hr
            rcases List.mem_append.mp hr with hr | hr
            · have := List.mem_takeWhile_imp hr
              simp at this; omega
            · exact hr
          · refine ih _ _ _ _ ?_ hc'
            rw [lerpInner_eq]
            simp only
            have hsplit := List.takeWhile_append_dropWhile (p := fun x => decide (x ≤ t)) (l := q :: rs)
            rw [← hsplit] at hr
            rcases List.mem_append.mp hr with hr | hr
            · have := List.mem_takeWhile_imp hr
              simp at this; omega
            · exact hr
          · exact ih _ _ _ _ hr hc'
          · exact ih _ _ _ _ hr hc'
  cases samples with
  | nil => exact absurd rfl hne
  | cons x s =>
    obtain ⟨t, d⟩ := x
    refine key s req t d [] hr (fun c hc => ?_)
    cases s with
    | nil => simp at hc
    | cons y s => exact h c (by rw [List.dropLast_cons_of_ne_nil (by simp)]; simp [hc])

/-- **C26 refuted (`lerp_data` reads past the end).**  If two samples follow all requests (and
the requests are not before the second sample in vain), the interpolation points are read past
their end. -/
theorem C26_lerp_oob_refuted (t0 t1 t2 : Int) (v0 v1 v2 : Fin 3 → K) (rest : List (Pt K))
    (req : List Int) (h : ∀ r ∈ req, r < t1) (keep : Bool) :
    lerpData req ((t0, v0) :: (t1, v1) :: (t2, v2) :: rest) keep = .error .oob := by
  unfold lerpData
  cases req with
  | nil => rfl
  | cons r rs =>
    have hr := h r (by simp)
    simp only [lerpLoop, lerpInner_eq]
    rw [if_pos (by omega)]
    have : (r :: rs).dropWhile (fun x => decide (x ≤ t1)) = [] := by
      rw [List.dropWhile_eq_nil_iff]
      intro x hx
      have := h x hx
      simp; omega
    rw [this]

/-- **C26 refuted (`lerp_data` interpolates over stale samples).**  The value at 15 between the
samples (10, 0) and (20, 10) should be 5; the code interpolates from the sample at 0. -/
theorem C26_lerp_stale_refuted : lerpData [15]
    [((0 : Int), ![(0 : ℚ), 0, 0]), (10, ![0, 0, 0]), (20, ![10, 10, 10])] false =
      .ok [(15, ![15 / 2, 15 / 2, 15 / 2])] := by
  simp only [lerpData, lerpLoop, lerpInner]
  norm_num
  ext i; fin_cases i <;> norm_num [lerpV]

/-- **C26 refuted (`lerp_data` drops a request).**  A request equal to the last sample is not
served. -/
theorem C26_lerp_last_refuted (v0 v1 : Fin 3 → K) :
    lerpData [10] [(0, v0), (10, v1)] false = .ok [] := by
  simp [lerpData, lerpLoop]

/-! ### `lerp_timestamps` and the synchronised pair -/

/-- **C26 (`lerp_timestamps`).**  The interpolation times are exactly the timestamps of the longer
sequence (the second one when equally long) between the first and last timestamp of the other. -/
theorem C26_lerp_timestamps (t0 t1 : List Int) (a b : Int) :
    (t0.length > t1.length → t1.head? = some a → t1.getLast? = some b →
      lerpTimestamps t0 t1 = .ok (t0.filter (fun t => decide (a ≤ t ∧ t ≤ b)))) ∧
    (t0.length ≤ t1.length → t0.head? = some a → t0.getLast? = some b →
      lerpTimestamps t0 t1 = .ok (t1.filter (fun t => decide (a ≤ t ∧ t ≤ b)))) := by
  refine ⟨fun h ha hb => ?_, fun h ha hb => ?_⟩
  · simp only [lerpTimestamps, if_pos h, ha, hb]
  · simp only [lerpTimestamps, if_neg (not_lt.mpr h), ha, hb]

theorem alignFront_spec (f : Int) (l : List (Pt K)) (hex : ∃ p ∈ l, f ≤ p.1) (hinc : Inc l) :
    alignFront f l = .ok (l.filter (fun p => decide (f ≤ p.1))) := by
  induction l with
  | nil => simp at hex
  | cons p l ih =>
    simp only [alignFront]
    by_cases h : p.1 < f
    · rw [if_pos h, List.filter_cons_of_neg (by simpa using h)]
      refine ih ?_ (List.pairwise_cons.mp hinc).2
      obtain ⟨q, hq, hqf⟩ := hex
      rcases List.mem_cons.mp hq with rfl | hq
      · omega
      · exact ⟨q, hq, hqf⟩
    · rw [if_neg h, List.filter_eq_self.mpr]
      intro q hq
      rcases List.mem_cons.mp hq with rfl | hq
      · simpa using h
      · have := (List.pairwise_cons.mp hinc).1 q hq; simp; omega

theorem alignBack_spec (b : Int) (l : List (Pt K)) (hex : ∃ p ∈ l, p.1 ≤ b) (hinc : Inc l) :
    alignBack b l = .ok (l.filter (fun p => decide (p.1 ≤ b))) := by
  have key : ∀ l : List (Pt K), (∃ p ∈ l, p.1 ≤ b) → l.Pairwise (fun a b => b.1 < a.1) →
      alignBackRev b l = .ok (l.filter (fun p => decide (p.1 ≤ b))) := by
    intro l
    induction l with
    | nil => intro hex; simp at hex
    | cons p l ih =>
      intro hex hinc
      simp only [alignBackRev]
      by_cases h : b < p.1
      · rw [if_pos h, List.filter_cons_of_neg (by simpa using h)]
        refine ih ?_ (List.pairwise_cons.mp hinc).2
        obtain ⟨q, hq, hqf⟩ := hex
        rcases List.mem_cons.mp hq with rfl | hq
        · omega
        · exact ⟨q, hq, hqf⟩
      · rw [if_neg h, List.filter_eq_self.mpr]
        intro q hq
        rcases List.mem_cons.mp hq with rfl | hq
        · simpa using h
        · have := (List.pairwise_cons.mp hinc).1 q hq; simp; omega
  unfold alignBack
  rw [key l.reverse (by simpa using hex) (List.pairwise_reverse.mpr hinc)]
  show Except.ok _ = _
  rw [List.filter_reverse, List.reverse_reverse]

/-- **C26 (synchronising two signals, partial).**  Let the first signal be the longer one, and let
the interpolation times reach past the last but one sample of the second signal without touching
its last sample.  Then both signals come back with exactly the interpolation times as
timestamps: the first restricted to them, the second interpolated. -/
theorem C26_sync_partial [CharZero K] (s0 s1 : List (Pt K)) (h0 : Inc s0) (h1 : Inc s1)
    (hlen : s0.length > s1.length) (a b : Pt K) (ha : s1.head? = some a) (hb : s1.getLast? = some b)
    (r : Pt K) (hr : r ∈ s0) (har : a.1 ≤ r.1) (hrb : r.1 ≤ b.1)
    (hpen : ∀ c ∈ s1.dropLast, c.1 < r.1) (hno : ∀ c ∈ s0, c.1 ≠ b.1) :
    ∃ s0' s1', syncData s0 s1 = .ok (s0', s1') ∧
      s0' = s0.filter (fun p => decide (a.1 ≤ p.1 ∧ p.1 ≤ b.1)) ∧
      s1'.map (·.1) = s0'.map (·.1) ∧ ∀ q ∈ s1', Between s1 q := by
  set L := (s0.map (·.1)).filter (fun t => decide (a.1 ≤ t ∧ t ≤ b.1)) with hL
  have hL0 : L = (s0.filter (fun p => decide (a.1 ≤ p.1 ∧ p.1 ≤ b.1))).map (·.1) := by
    rw [hL, List.filter_map]; rfl
  have hts : lerpTimestamps (s0.map (·.1)) (s1.map (·.1)) = .ok L := by
    refine (C26_lerp_timestamps _ _ a.1 b.1).1 (by simpa using hlen) ?_ ?_
    · rw [List.head?_map, ha]; rfl
    · rw [List.getLast?_map, hb]; rfl
  have hLp : L.Pairwise (· < ·) := by
    have : (s0.map (·.1)).Pairwise (· < ·) := List.pairwise_map.mpr h0
    exact this.filter _
  have hrL : r.1 ∈ L := by
    rw [hL, List.mem_filter]
    exact ⟨List.mem_map.mpr ⟨r, hr, rfl⟩, by simp [har, hrb]⟩
  have hs1 : s1 ≠ [] := by rintro rfl; simp at ha
  obtain ⟨s1', hs1'⟩ := C26_lerp_safe_partial s1 L false hs1 r.1 hrL hpen
  have hfirst : ∀ q ∈ L, ∀ x ∈ s1.head?, x.1 ≤ q := by
    intro q hq x hx
    rw [ha] at hx
    cases hx
    rw [hL, List.mem_filter] at hq
    simpa using (by simpa using hq.2 : a.1 ≤ q ∧ q ≤ b.1).1
  obtain ⟨⟨rest, hrest, hrest2⟩, hbet⟩ := C26_lerp_partial s1 L h1 hLp hfirst s1' hs1'
  have hbm : b ∈ s1 := List.mem_of_getLast? hb
  have hrnil : rest = [] := by
    cases rest with
    | nil => rfl
    | cons q qs =>
      exfalso
      have hqL : q ∈ L := by rw [← hrest]; simp
      have h2 := hrest2 q (by simp) b hbm
      rw [hL, List.mem_filter] at hqL
      obtain ⟨c, hc, hcq⟩ := List.mem_map.mp hqL.1
      have h3 : a.1 ≤ q ∧ q ≤ b.1 := by simpa using hqL.2
      have := hno c hc
      omega
  rw [hrnil, List.append_nil] at hrest
  obtain ⟨f, hf⟩ : ∃ f, L.head? = some f := by
    cases hh : L.head? with
    | none => rw [List.head?_eq_none_iff] at hh; rw [hh] at hrL; simp at hrL
    | some f => exact ⟨f, rfl⟩
  obtain ⟨e, he⟩ : ∃ e, L.getLast? = some e := by
    cases hh : L.getLast? with
    | none => rw [List.getLast?_eq_none_iff] at hh; rw [hh] at hrL; simp at hrL
    | some f => exact ⟨f, rfl⟩
  have hfmin : ∀ q ∈ L, f ≤ q := by
    intro q hq
    cases hLl : L with
    | nil => rw [hLl] at hf; simp at hf
    | cons y ys =>
      rw [hLl] at hf hq hLp
      simp only [List.head?_cons, Option.some.injEq] at hf
      subst hf
      rcases List.mem_cons.mp hq with rfl | hq
      · exact le_refl _
      · exact ((List.pairwise_cons.mp hLp).1 q hq).le
  have hemax : ∀ q ∈ L, q ≤ e := by
    intro q hq
    rcases List.eq_nil_or_concat L with hn | ⟨p, y, hp⟩
    · rw [hn] at hq; simp at hq
    · rw [hp] at he hq hLp
      simp only [List.concat_eq_append, List.getLast?_append_cons, List.getLast?_singleton,
        Option.some.injEq] at he hq hLp
      subst he
      rcases List.mem_append.mp hq with hq | hq
      · exact ((List.pairwise_append.mp hLp).2.2 q hq y (by simp)).le
      · simp only [List.mem_singleton] at hq; rw [hq]
  have hfL : f ∈ L := List.mem_of_head? hf
  have heL : e ∈ L := List.mem_of_getLast? he
  have hs1inc : Inc s1' := by
    have : (s1'.map (·.1)).Pairwise (· < ·) := by rw [hrest]; exact hLp
    exact List.pairwise_map.mp this
  have memL : ∀ q ∈ s1', q.1 ∈ L := fun q hq => by rw [← hrest]; exact List.mem_map.mpr ⟨q, hq, rfl⟩
  obtain ⟨q1, hq1, hq1f⟩ : ∃ q ∈ s1', q.1 = f := by
    have := hfL; rw [← hrest] at this
    obtain ⟨q, hq, h⟩ := List.mem_map.mp this; exact ⟨q, hq, h⟩
  have hA1 : alignFront f s1' = .ok s1' := by
    rw [alignFront_spec f s1' ⟨q1, hq1, hq1f.ge⟩ hs1inc, List.filter_eq_self.mpr]
    intro q hq; simpa using hfmin _ (memL q hq)
  have hB1 : alignBack e s1' = .ok s1' := by
    rw [alignBack_spec e s1' ⟨q1, hq1, hemax _ (memL q1 hq1)⟩ hs1inc, List.filter_eq_self.mpr]
    intro q hq; simpa using hemax _ (memL q hq)
  obtain ⟨p0, hp0, hp0f⟩ : ∃ p ∈ s0, p.1 = f := by
    have := hfL; rw [hL, List.mem_filter] at this
    obtain ⟨q, hq, h⟩ := List.mem_map.mp this.1; exact ⟨q, hq, h⟩
  have hA0 : alignFront f s0 = .ok (s0.filter (fun p => decide (f ≤ p.1))) :=
    alignFront_spec f s0 ⟨p0, hp0, hp0f.ge⟩ h0
  have hB0 : alignBack e (s0.filter (fun p => decide (f ≤ p.1))) =
      .ok (s0.filter (fun p => decide (a.1 ≤ p.1 ∧ p.1 ≤ b.1))) := by
    rw [alignBack_spec e _ ⟨p0, List.mem_filter.mpr ⟨hp0, by simp [hp0f]⟩, by
      rw [hp0f]; exact hemax f hfL⟩ (h0.filter _), List.filter_filter]
    congr 1
    refine List.filter_congr (fun p hp => ?_)
    rw [Bool.eq_iff_iff]
    simp only [Bool.and_eq_true, decide_eq_true_eq]
    constructor
    · rintro ⟨h2, h3⟩
      have hf2 : a.1 ≤ f ∧ f ≤ b.1 := by
        have := hfL; rw [hL, List.mem_filter] at this; simpa using this.2
      have he2 : a.1 ≤ e ∧ e ≤ b.1 := by
        have := heL; rw [hL, List.mem_filter] at this; simpa using this.2
      omega
    · intro hpab
      have hpL : p.1 ∈ L := by
        rw [hL, List.mem_filter]; exact ⟨List.mem_map.mpr ⟨p, hp, rfl⟩, by simpa using hpab⟩
      exact ⟨hemax _ hpL, hfmin _ hpL⟩
  refine ⟨_, s1', ?_, rfl, by rw [hrest, hL0], hbet⟩
  unfold syncData
  rw [hts]
  simp only [AprilGrid.ok_bind, if_pos hlen, hs1', hf, he, endOf, hA1, hA0, hB1, hB0]

/-- Witness for the hypotheses of `C26_sync_partial`. -/
example : ∃ s0' s1', syncData [((0 : Int), ![(0 : ℚ), 0, 0]), (5, ![1, 0, 0]), (10, ![2, 0, 0]), (15, ![3, 0, 0])]
    [(2, ![0, 0, 0]), (9, ![7, 7, 7]), (12, ![10, 10, 10])] = .ok (s0', s1') ∧
    s0'.map (·.1) = [5, 10] ∧ s1'.map (·.1) = s0'.map (·.1) := by
  obtain ⟨s0', s1', h1, h2, h3, -⟩ := C26_sync_partial
    [((0 : Int), ![(0 : ℚ), 0, 0]), (5, ![1, 0, 0]), (10, ![2, 0, 0]), (15, ![3, 0, 0])]
    [(2, ![0, 0, 0]), (9, ![7, 7, 7]), (12, ![10, 10, 10])] (by simp [Inc]) (by simp [Inc])
    (by simp) _ _ rfl rfl (10, ![2, 0, 0]) (by simp) (by norm_num) (by norm_num) (by simp) (by simp)
  exact ⟨s0', s1', h1, by rw [h2]; rfl, h3⟩

end Data

end Yac.Stream
