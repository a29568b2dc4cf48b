import Verif.Imu.Model
import Mathlib.Data.List.Basic
import Mathlib.Tactic.Linarith
import Mathlib.Tactic.Ring
import Mathlib.Tactic.FieldSimp

/-!
# The loop of the IMU integration cuts the interval into steps
-/

namespace Yac.Imu
open Yac.Geom Yac.Stream Matrix

theorem at_ok {α : Type} {l : List α} {k : Nat} {x : α} : at? l k = .ok x ↔ l[k]? = some x := by
  unfold at?
  cases l[k]? with
  | none => exact ⟨(fun h => by cases h), (fun h => by cases h)⟩
  | some y =>
    constructor
    · intro h; injection h with h; rw [h]
    · intro h; injection h with h; rw [h]

theorem at_lt {α : Type} {l : List α} {k : Nat} (h : k < l.length) : at? l k = .ok l[k] :=
  at_ok.mpr (List.getElem?_eq_getElem h)

theorem at_ge {α : Type} {l : List α} {k : Nat} (h : l.length ≤ k) : at? l k = .error .oob := by
  unfold at?; rw [List.getElem?_eq_none h]

theorem ns2sec_add (a b : ℤ) : ns2sec (a + b) = ns2sec a + ns2sec b := by
  unfold ns2sec; push_cast; ring

theorem ns2sec_pos {a : ℤ} : 0 < ns2sec a ↔ 0 < a := by
  unfold ns2sec
  rw [lt_div_iff₀ (by positivity), zero_mul]
  exact_mod_cast Iff.rfl

theorem ns2sec_zero : ns2sec 0 = 0 := by simp [ns2sec]

/-- All measurements are the same. -/
def Const (d : Imu (Vec3 ℝ)) (w a : Vec3 ℝ) : Prop := (∀ x ∈ d.gyr, x = w) ∧ ∀ x ∈ d.acc, x = a

/-- The distances between a time and the times of a list, one after the other. -/
def diffs : ℤ → List ℤ → List ℤ
  | _, [] => []
  | t, x :: xs => (x - t) :: diffs x xs

/-- The steps into which the sample times cut the interval, in seconds. -/
noncomputable def steps (ts : List ℤ) (tstart tend : ℤ) : List ℝ :=
  (diffs tstart (ts.filter (fun t => decide (tstart < t ∧ t < tend)) ++ [tend])).map ns2sec

/-- Every sample has its measurements. -/
def Full (d : Imu (Vec3 ℝ)) : Prop := d.acc.length = d.ts.length ∧ d.gyr.length = d.ts.length

theorem samples_end {d : Imu (Vec3 ℝ)} (hf : Full d) {k : Nat} (hk : d.ts.length ≤ k + 1) :
    ∃ e, samples d k = .error e := by
  unfold samples
  cases e1 : at? d.gyr k with
  | error e => exact ⟨e, rfl⟩
  | ok x1 =>
  cases e2 : at? d.acc k with
  | error e => exact ⟨e, rfl⟩
  | ok x2 =>
    rw [at_ge (l := d.gyr) (k := k + 1) (by rw [hf.2]; exact hk)]
    exact ⟨_, rfl⟩

/-- A step with the same measurements at both ends. -/
def Seg.Const (g : Seg) (w a : Vec3 ℝ) : Prop := g.w0 = w ∧ g.w1 = w ∧ g.a0 = a ∧ g.a1 = a

theorem lerp_self (r : ℝ) (x : Vec3 ℝ) : lerp r x x = x := by
  unfold lerp; rw [← add_smul]; simp

theorem atEnd_self (c : Bool) (r : ℝ) (x : Vec3 ℝ) : atEnd c r x x = x := by
  unfold atEnd; split
  · exact lerp_self r x
  · rfl

theorem atStart_self (c : Bool) (r : ℝ) (x : Vec3 ℝ) : atStart c r x x = x := by
  unfold atStart; split
  · rfl
  · rw [← add_smul]; simp

/-- Closed under straight lines between its points. -/
def Hull (K : Vec3 ℝ → Prop) : Prop := ∀ x y r, K x → K y → 0 ≤ r → r ≤ 1 → K (lerp r x y)

theorem ratio_le {a b : ℤ} (h0 : 0 < a) (h : a ≤ b) : 0 ≤ ns2sec a / ns2sec b ∧ ns2sec a / ns2sec b ≤ 1 := by
  have ha := ns2sec_pos.mpr h0
  have hb := ns2sec_pos.mpr (lt_of_lt_of_le h0 h)
  have hab : ns2sec a ≤ ns2sec b := by
    unfold ns2sec
    have : (a : ℝ) ≤ b := by exact_mod_cast h
    apply div_le_div_of_nonneg_right this (by positivity)
  exact ⟨by positivity, (div_le_one hb).mpr hab⟩

/-- What one pass of the body does. -/
theorem body_cases {re : Bool} {p : Params} {sb : SB} {tend : ℤ} {s : Loop} {w0 w1 a0 a1 : Vec3 ℝ}
    {t0 t1 : ℤ} {b : Loop × Bool} (h : body re p sb tend s w0 w1 a0 a1 t0 t1 = .ok b) :
    (b = (s, false) ∧ (t1 < s.time ∨ min tend t1 ≤ s.time) ∧ (∀ p' sb' s', s'.time = s.time →
      body re p' sb' tend s' w0 w1 a0 a1 t0 t1 = .ok (s', false))) ∨
    (s.time < min tend t1 ∧ ∃ g : Seg, g.dt = ns2sec (min tend t1 - s.time) ∧
      (w0 = w1 → a0 = a1 → g.Const w0 a0) ∧
      (t0 ≤ s.time → ∀ K, Hull K → K w0 → K w1 → K g.w0 ∧ K g.w1) ∧
      b = (⟨integrate re p sb s.I g, min tend t1, true, s.count + 1⟩, decide (min tend t1 = tend)) ∧
      (∀ p' sb' s', s'.time = s.time → s'.started = s.started → body re p' sb' tend s' w0 w1 a0 a1 t0 t1 =
        .ok (⟨integrate re p' sb' s'.I g, min tend t1, true, s'.count + 1⟩, decide (min tend t1 = tend)))) := by
  have hmin : (if tend < t1 then tend else t1) = min tend t1 := by
    by_cases hc : tend < t1
    · rw [if_pos hc, min_eq_left hc.le]
    · rw [if_neg hc, min_eq_right (not_lt.mp hc)]
  unfold body at h
  simp only at h
  rw [hmin] at h
  by_cases h1 : t1 - s.time < 0
  · rw [if_pos h1] at h
    injection h with h
    left
    refine ⟨h.symm, Or.inl (by omega), fun p' sb' s' ht => ?_⟩
    unfold body
    simp only
    rw [ht, if_pos h1]
  rw [if_neg h1] at h
  by_cases h2 : ns2sec (min tend t1 - s.time) ≤ 0
  · rw [if_pos h2] at h
    injection h with h
    left
    refine ⟨h.symm, Or.inr ?_, fun p' sb' s' ht => ?_⟩
    · by_contra hc
      exact absurd (ns2sec_pos.mpr (show 0 < min tend t1 - s.time by omega)) (by linarith)
    · unfold body
      simp only
      rw [hmin, ht, if_neg h1, if_pos h2]
  rw [if_neg h2] at h
  have hp : 0 < min tend t1 - s.time := ns2sec_pos.mp (not_le.mp h2)
  by_cases h3 : tend < t1 ∧ t1 = t0
  · rw [if_pos h3] at h; cases h
  rw [if_neg h3] at h
  by_cases h4 : s.started = false ∧ startInterval re (min tend t1) s.time t0 = 0
  · rw [if_pos h4] at h; cases h
  rw [if_neg h4] at h
  injection h with h
  right
  refine ⟨by omega, _, rfl, ?_, ?_, h.symm, ?_⟩
  · rintro rfl rfl
    refine ⟨?_, ?_, ?_, ?_⟩ <;> simp only [atEnd_self, atStart_self]
  · intro h0 K hK k0 k1
    have hend : K (atEnd (decide (tend < t1)) (ns2sec (min tend t1 - s.time) / ns2sec (t1 - t0)) w0 w1) := by
      unfold atEnd
      by_cases hc : tend < t1
      · rw [if_pos (by simpa using hc)]
        have := ratio_le (a := min tend t1 - s.time) (b := t1 - t0) hp (by omega)
        exact hK _ _ _ k0 k1 this.1 this.2
      · rw [if_neg (by simpa using hc)]; exact k1
    refine ⟨?_, hend⟩
    simp only
    unfold atStart
    split
    · exact k0
    · have : ∃ b, startInterval re (min tend t1) s.time t0 = b ∧ min tend t1 - s.time ≤ b := by
        unfold startInterval
        split
        · exact ⟨_, rfl, by omega⟩
        · exact ⟨_, rfl, le_refl _⟩
      obtain ⟨b, hb, hle⟩ := this
      rw [hb]
      have := ratio_le hp hle
      rw [add_comm]
      exact hK _ _ _ hend k0 this.1 this.2
  · intro p' sb' s' ht hst
    unfold body
    simp only
    rw [hmin, ht, hst, if_neg h1, if_neg h2, if_neg h3, if_neg h4]

/-- The steps the loop takes. -/
theorem loop_steps {re : Bool} {p : Params} {sb : SB} {d : Imu (Vec3 ℝ)} {tend : ℤ} (n k : Nat)
    (s s' : Loop) (h : loop re p sb d tend n k s = .ok s') :
    ∃ l : List Seg, s'.I = l.foldl (integrate re p sb) s.I ∧ s'.count = s.count + l.length ∧
      (∀ g ∈ l, 0 < g.dt) ∧ (l.map Seg.dt).sum = ns2sec (s'.time - s.time) ∧ s.time ≤ s'.time ∧
      (∀ w a, Const d w a → ∀ g ∈ l, g.Const w a) ∧
      (Full d → d.ts.Pairwise (· < ·) → (∀ t0, d.ts[k]? = some t0 → t0 ≤ s.time) →
        s.time < tend → s'.time = tend → l.map Seg.dt = steps (d.ts.drop (k + 1)) s.time tend) ∧
      (Full d → (∀ t0, d.ts[k]? = some t0 → t0 ≤ s.time) → s.time < tend →
        ∀ K, Hull K → (∀ x ∈ d.gyr, K x) → ∀ g ∈ l, K g.w0 ∧ K g.w1) ∧
      (∀ p' sb' s2, s2.time = s.time → s2.started = s.started → loop re p' sb' d tend n k s2 =
        .ok ⟨l.foldl (integrate re p' sb') s2.I, s'.time, s'.started, s2.count + l.length⟩) := by
  induction n generalizing k s with
  | zero =>
    injection h with h
    subst h
    exact ⟨[], rfl, rfl, by simp, by simp [ns2sec_zero], le_refl _, by simp, fun _ _ _ h1 h2 => by omega, by simp,
      fun p' sb' s2 ht hst => by rw [← ht, ← hst]; rfl⟩
  | succ n ih =>
    rw [loop] at h
    cases hm : samples d k with
    | error e => rw [hm] at h; cases h
    | ok m =>
      rw [hm] at h
      replace h : (at? d.ts k >>= fun t0 => nextTime d tend k >>= fun t1 =>
        body re p sb tend s m.1 m.2.1 m.2.2.1 m.2.2.2 t0 t1 >>= fun b =>
        if b.2 then Except.ok b.1 else loop re p sb d tend n (k + 1) b.1) = .ok s' := h
      cases ht : at? d.ts k with
      | error e => rw [ht] at h; cases h
      | ok t0 =>
        rw [ht] at h
        replace h : (nextTime d tend k >>= fun t1 =>
          body re p sb tend s m.1 m.2.1 m.2.2.1 m.2.2.2 t0 t1 >>= fun b =>
          if b.2 then Except.ok b.1 else loop re p sb d tend n (k + 1) b.1) = .ok s' := h
        cases hn : nextTime d tend k with
        | error e => rw [hn] at h; cases h
        | ok t1 =>
          rw [hn] at h
          replace h : (body re p sb tend s m.1 m.2.1 m.2.2.1 m.2.2.2 t0 t1 >>= fun b =>
            if b.2 then Except.ok b.1 else loop re p sb d tend n (k + 1) b.1) = .ok s' := h
          cases hb : body re p sb tend s m.1 m.2.1 m.2.2.1 m.2.2.2 t0 t1 with
          | error e => rw [hb] at h; cases h
          | ok b =>
            rw [hb] at h
            replace h : (if b.2 then Except.ok b.1 else loop re p sb d tend n (k + 1) b.1) = .ok s' := h
            have hconst : ∀ w a, Const d w a → m.1 = w ∧ m.2.1 = w ∧ m.2.2.1 = a ∧ m.2.2.2 = a := by
              rintro w a ⟨c1, c2⟩
              unfold samples at hm
              cases e1 : at? d.gyr k with
              | error e => rw [e1] at hm; cases hm
              | ok x1 =>
              cases e2 : at? d.acc k with
              | error e => rw [e1, e2] at hm; cases hm
              | ok x2 =>
              cases e3 : at? d.gyr (k + 1) with
              | error e => rw [e1, e2, e3] at hm; cases hm
              | ok x3 =>
              cases e4 : at? d.acc (k + 1) with
              | error e => rw [e1, e2, e3, e4] at hm; cases hm
              | ok x4 =>
                rw [e1, e2, e3, e4] at hm
                injection hm with hm
                rw [← hm]
                exact ⟨c1 _ (List.mem_of_getElem? (at_ok.mp e1)), c1 _ (List.mem_of_getElem? (at_ok.mp e3)),
                  c2 _ (List.mem_of_getElem? (at_ok.mp e2)), c2 _ (List.mem_of_getElem? (at_ok.mp e4))⟩
            have hgyr : ∀ K : Vec3 ℝ → Prop, (∀ x ∈ d.gyr, K x) → K m.1 ∧ K m.2.1 := by
              intro K c1
              unfold samples at hm
              cases e1 : at? d.gyr k with
              | error e => rw [e1] at hm; cases hm
              | ok x1 =>
              cases e2 : at? d.acc k with
              | error e => rw [e1, e2] at hm; cases hm
              | ok x2 =>
              cases e3 : at? d.gyr (k + 1) with
              | error e => rw [e1, e2, e3] at hm; cases hm
              | ok x3 =>
              cases e4 : at? d.acc (k + 1) with
              | error e => rw [e1, e2, e3, e4] at hm; cases hm
              | ok x4 =>
                rw [e1, e2, e3, e4] at hm
                injection hm with hm
                rw [← hm]
                exact ⟨c1 _ (List.mem_of_getElem? (at_ok.mp e1)), c1 _ (List.mem_of_getElem? (at_ok.mp e3))⟩
            have hdrop : Full d → d.ts.drop (k + 1) = t1 :: d.ts.drop (k + 1 + 1) ∧ d.ts[k + 1]? = some t1 := by
              intro hf
              have hkl : k + 1 < d.ts.length := by
                by_contra hc
                obtain ⟨e, he⟩ := samples_end hf (not_lt.mp hc)
                rw [hm] at he; cases he
              have : d.ts[k + 1]? = some t1 := by
                unfold nextTime at hn
                rw [if_neg (by show ¬k + 1 = d.ts.length; omega)] at hn
                exact at_ok.mp hn
              refine ⟨?_, this⟩
              rw [List.drop_eq_getElem_cons hkl]
              congr 1
              exact (List.getElem?_eq_some_iff.mp this).2
            have hunf : ∀ p' sb' s2, loop re p' sb' d tend (n + 1) k s2 =
                (body re p' sb' tend s2 m.1 m.2.1 m.2.2.1 m.2.2.2 t0 t1 >>= fun b =>
                  if b.2 then Except.ok b.1 else loop re p' sb' d tend n (k + 1) b.1) := by
              intro p' sb' s2
              rw [loop, hm, ht, hn]; rfl
            rcases body_cases hb with ⟨hbe, hle, huni⟩ | ⟨hlt, g, hdt, hgc, hgh, hbe, huni⟩
            · rw [hbe] at h
              obtain ⟨l, i1, i2, i3, i4, i5, i6, i7, i9, i8⟩ := ih (k + 1) s h
              refine ⟨l, i1, i2, i3, i4, i5, i6, fun hf hp h0 hlt he => ?_, fun hf h0 hlt => i9 hf (fun t0 h0 => by
                obtain ⟨e1, e2⟩ := hdrop hf
                rw [e2] at h0; injection h0 with h0; omega) hlt, fun p' sb' s2 h1 h2 => by
                rw [hunf, huni p' sb' s2 h1]; exact i8 p' sb' s2 h1 h2⟩
              obtain ⟨e1, e2⟩ := hdrop hf
              have ht1 : t1 ≤ s.time := by omega
              rw [i7 hf hp (fun t0 h0 => by rw [e2] at h0; injection h0 with h0; omega) hlt he, e1]
              unfold steps
              rw [List.filter_cons, if_neg (by simp; omega)]
            · have hg : 0 < g.dt := by rw [hdt]; exact ns2sec_pos.mpr (by omega)
              have hgC : ∀ w a, Const d w a → g.Const w a := by
                intro w a hc
                obtain ⟨c1, c2, c3, c4⟩ := hconst w a hc
                have := hgc (by rw [c1, c2]) (by rw [c3, c4])
                rwa [c1, c3] at this
              rw [hbe] at h
              by_cases hbr : min tend t1 = tend
              · rw [if_pos (by simpa using hbr)] at h
                injection h with h
                rw [← h]
                refine ⟨[g], rfl, rfl, by simpa using hg, by simp [hdt], hlt.le, ?_, ?_, fun hf h0 _ K hK hk x hx => by
                  rw [List.mem_singleton.mp hx]
                  exact hgh (h0 t0 (at_ok.mp ht)) K hK (hgyr K hk).1 (hgyr K hk).2, fun p' sb' s2 h1 h2 => by
                  rw [hunf, huni p' sb' s2 h1 h2]
                  show (if decide (min tend t1 = tend) = true then _ else _) = _
                  rw [if_pos (by simpa using hbr)]; rfl⟩
                · intro w a hc x hx
                  rw [List.mem_singleton.mp hx]; exact hgC w a hc
                · intro hf hp h0 hlt' he
                  obtain ⟨e1, e2⟩ := hdrop hf
                  have : (d.ts.drop (k + 1)).filter (fun t => decide (s.time < t ∧ t < tend)) = [] := by
                    rw [List.filter_eq_nil_iff]
                    intro x hx
                    rw [e1] at hx
                    have hp' : (t1 :: d.ts.drop (k + 1 + 1)).Pairwise (· < ·) := by
                      rw [← e1]; exact hp.sublist (List.drop_sublist _ _)
                    have : t1 ≤ x := by
                      rcases List.mem_cons.mp hx with rfl | hx
                      · exact le_refl _
                      · exact ((List.pairwise_cons.mp hp').1 x hx).le
                    simp; omega
                  unfold steps
                  rw [this]
                  simp [diffs, hdt, hbr]
              · rw [if_neg (by simpa using hbr)] at h
                obtain ⟨l, i1, i2, i3, i4, i5, i6, i7, i9, i8⟩ := ih (k + 1) _ h
                refine ⟨g :: l, i1, ?_, ?_, ?_, ?_, ?_, ?_, fun hf h0 _ K hK hk x hx => by
                  rcases List.mem_cons.mp hx with rfl | hx
                  · exact hgh (h0 t0 (at_ok.mp ht)) K hK (hgyr K hk).1 (hgyr K hk).2
                  · obtain ⟨e1, e2⟩ := hdrop hf
                    exact i9 hf (fun t0 h0 => by
                      rw [e2] at h0; injection h0 with h0; simp only; omega) (by simp only; omega) K hK hk x hx, fun p' sb' s2 h1 h2 => by
                  rw [hunf, huni p' sb' s2 h1 h2]
                  show (if decide (min tend t1 = tend) = true then _ else _) = _
                  rw [if_neg (by simpa using hbr)]
                  refine (i8 p' sb' ⟨integrate re p' sb' s2.I g, min tend t1, true, s2.count + 1⟩ rfl rfl).trans ?_
                  rw [List.length_cons, List.foldl_cons]
                  congr 2
                  simp only; omega⟩
                · rw [i2, List.length_cons]; simp only; omega
                · intro x hx
                  rcases List.mem_cons.mp hx with rfl | hx
                  · exact hg
                  · exact i3 x hx
                · rw [List.map_cons, List.sum_cons, i4, hdt, ← ns2sec_add]
                  congr 1; simp only; ring
                · simp only at i5; omega
                · intro w a hc x hx
                  rcases List.mem_cons.mp hx with rfl | hx
                  · exact hgC w a hc
                  · exact i6 w a hc x hx
                · intro hf hp h0 hlt' he
                  obtain ⟨e1, e2⟩ := hdrop hf
                  have hm1 : min tend t1 = t1 := by omega
                  have hp' : (t1 :: d.ts.drop (k + 1 + 1)).Pairwise (· < ·) := by
                    rw [← e1]; exact hp.sublist (List.drop_sublist _ _)
                  have hi := i7 hf hp (fun t0 h0 => by
                    rw [e2] at h0; injection h0 with h0; simp only [hm1]; omega)
                    (by simp only; omega) he
                  simp only [hm1] at hi
                  rw [List.map_cons, hi, e1, hdt, hm1]
                  unfold steps
                  rw [List.filter_cons, if_pos (by simp; omega), List.cons_append, diffs, List.map_cons]
                  congr 4
                  apply List.filter_congr
                  intro x hx
                  have := (List.pairwise_cons.mp hp').1 x hx
                  apply decide_eq_decide.mpr
                  constructor <;> rintro ⟨_, _⟩ <;> constructor <;> omega

theorem samples_ok {d : Imu (Vec3 ℝ)} (hf : Full d) {k : Nat} (hk : k + 1 < d.ts.length) :
    ∃ m, samples d k = .ok m := by
  unfold samples
  rw [at_lt (l := d.gyr) (k := k) (by rw [hf.2]; omega), at_lt (l := d.acc) (k := k) (by rw [hf.1]; omega),
    at_lt (l := d.gyr) (k := k + 1) (by rw [hf.2]; omega),
    at_lt (l := d.acc) (k := k + 1) (by rw [hf.1]; omega)]
  exact ⟨_, rfl⟩

/-- The body before the end is reached: it does not fail, and stops exactly at the end. -/
theorem body_ok {re : Bool} {p : Params} {sb : SB} {tend : ℤ} {s : Loop} (w0 w1 a0 a1 : Vec3 ℝ)
    {t0 t1 : ℤ} (ht : s.time < tend) (h0 : t0 < tend) (hs : s.started = false → t0 ≤ s.time) :
    ∃ b, body re p sb tend s w0 w1 a0 a1 t0 t1 = .ok b ∧
      ((b.2 = true ∧ b.1.time = tend ∧ tend ≤ t1 ∧ b.1.count = s.count + 1) ∨ (b.2 = false ∧ b.1.time < tend ∧ t1 < tend ∧
        (b.1.started = false → t1 ≤ b.1.time))) := by
  have hmin : (if tend < t1 then tend else t1) = min tend t1 := by
    by_cases hc : tend < t1
    · rw [if_pos hc, min_eq_left hc.le]
    · rw [if_neg hc, min_eq_right (not_lt.mp hc)]
  unfold body
  simp only
  rw [hmin]
  by_cases h1 : t1 - s.time < 0
  · rw [if_pos h1]
    exact ⟨_, rfl, Or.inr ⟨rfl, ht, by omega, fun _ => by simp only; omega⟩⟩
  rw [if_neg h1]
  by_cases h2 : ns2sec (min tend t1 - s.time) ≤ 0
  · rw [if_pos h2]
    have : min tend t1 ≤ s.time := by
      by_contra hc
      exact absurd (ns2sec_pos.mpr (show 0 < min tend t1 - s.time by omega)) (by linarith)
    exact ⟨_, rfl, Or.inr ⟨rfl, ht, by omega, fun _ => by simp only; omega⟩⟩
  rw [if_neg h2]
  have hp : 0 < min tend t1 - s.time := ns2sec_pos.mp (not_le.mp h2)
  rw [if_neg (by omega)]
  rw [if_neg]
  · refine ⟨_, rfl, ?_⟩
    by_cases hbr : min tend t1 = tend
    · left; exact ⟨by simpa using hbr, hbr, by omega, rfl⟩
    · right
      refine ⟨by simpa using hbr, ?_, by omega, ?_⟩
      · show min tend t1 < tend; omega
      · intro h; cases h
  · rintro ⟨hst, h⟩
    have := hs hst
    unfold startInterval at h
    split at h <;> omega

/-- Reaching the end: over samples covering the interval the loop does not fail and stops exactly at
the end. -/
theorem loop_ok {re : Bool} {p : Params} {sb : SB} {d : Imu (Vec3 ℝ)} {tend : ℤ} (hf : Full d)
    {last : ℤ} (hl : d.ts.getLast? = some last) (hlast : tend ≤ last) (n k : Nat) (s : Loop)
    (hn : d.ts.length ≤ k + n + 1) (ht : s.time < tend) {t0 : ℤ} (hk : d.ts[k]? = some t0)
    (h0 : t0 < tend) (hs : s.started = false → t0 ≤ s.time) :
    ∃ s', loop re p sb d tend n k s = .ok s' ∧ s'.time = tend ∧ s.count < s'.count := by
  have hkl : k < d.ts.length := (List.getElem?_eq_some_iff.mp hk).1
  have hlast' : d.ts[d.ts.length - 1]? = some last := by
    rw [← List.getLast?_eq_getElem?]; exact hl
  have hk1 : k + 1 < d.ts.length := by
    by_contra hc
    have : k = d.ts.length - 1 := by omega
    rw [this, hlast'] at hk
    injection hk with hk
    omega
  induction n generalizing k s t0 with
  | zero => omega
  | succ n ih =>
    rw [loop]
    obtain ⟨m, hm⟩ := samples_ok hf hk1
    rw [hm, at_ok.mpr hk]
    have hnt : nextTime d tend k = .ok d.ts[k + 1] := by
      unfold nextTime
      rw [if_neg (by show ¬k + 1 = d.ts.length; omega), at_lt hk1]
    rw [hnt]
    show ∃ s', (body re p sb tend s m.1 m.2.1 m.2.2.1 m.2.2.2 t0 d.ts[k + 1] >>= fun b =>
      if b.2 then Except.ok b.1 else loop re p sb d tend n (k + 1) b.1) = .ok s' ∧ _
    obtain ⟨b, hb, hc⟩ := body_ok (re := re) (p := p) (sb := sb) m.1 m.2.1 m.2.2.1 m.2.2.2
      (t1 := d.ts[k + 1]) ht h0 hs
    have hcount : s.count ≤ b.1.count := by
      rcases body_cases hb with ⟨e, -⟩ | ⟨-, g, -, -, -, e, -⟩ <;> rw [e]
      exact Nat.le_succ _
    rw [hb]
    show ∃ s', (if b.2 then Except.ok b.1 else loop re p sb d tend n (k + 1) b.1) = .ok s' ∧ _
    rcases hc with ⟨c1, c2, -, c4⟩ | ⟨c1, c2, c3, c4⟩
    · rw [c1]
      exact ⟨b.1, rfl, c2, by omega⟩
    · rw [c1]
      simp only [Bool.false_eq_true, if_false]
      have hk1' : d.ts[k + 1]? = some d.ts[k + 1] := List.getElem?_eq_getElem hk1
      have hk2 : k + 1 + 1 < d.ts.length := by
        by_contra hcc
        have : k + 1 = d.ts.length - 1 := by omega
        rw [← this, hk1'] at hlast'
        injection hlast' with hlast'
        omega
      obtain ⟨s', e1, e2, e3⟩ := ih (k + 1) b.1 (by omega) c2 hk1' c3 c4 hk1 hk2
      exact ⟨s', e1, e2, by omega⟩

end Yac.Imu
