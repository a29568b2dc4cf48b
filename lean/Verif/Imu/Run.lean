import Verif.Imu.Kinematics

/-!
# A run over samples covering the interval
-/

namespace Yac.Imu
open Yac.Geom Yac.Stream Yac.Residual Matrix

/-- The data covers the interval: every sample is complete, the first is not after the start and the
last not before the end. -/
structure Covers (d : Imu (Vec3 ℝ)) (tstart tend : ℤ) : Prop where
  full : Full d
  first : ∃ f, d.ts.head? = some f ∧ f ≤ tstart
  last : ∃ b, d.ts.getLast? = some b ∧ tend ≤ b

/-- The steps a run takes. -/
structure Run (re : Bool) (p : Params) (sb : SB) (d : Imu (Vec3 ℝ)) (tstart tend : ℤ) (s : Loop)
    (l : List Seg) : Prop where
  fold : s.I = l.foldl (integrate re p sb) {}
  count : s.count = l.length
  pos : ∀ g ∈ l, 0 < g.dt
  sum : (l.map Seg.dt).sum = ns2sec (tend - tstart)
  const : ∀ w a, Const d w a → ∀ g ∈ l, g.Const w a
  cut : d.ts.Pairwise (· < ·) → l.map Seg.dt = if tstart < tend then steps d.ts tstart tend else []
  hull : ∀ K, Hull K → (∀ x ∈ d.gyr, K x) → ∀ g ∈ l, K g.w0 ∧ K g.w1
  other : ∀ p' sb', (if re = true then redo p' sb' d tstart tend else preint p' sb' d tstart tend) =
    .ok ⟨l.foldl (integrate re p' sb') {}, s.time, s.started, l.length⟩

theorem steps_drop {d : Imu (Vec3 ℝ)} {tstart tend f : ℤ} (h : d.ts.head? = some f) (hf : f ≤ tstart) :
    steps (d.ts.drop 1) tstart tend = steps d.ts tstart tend := by
  cases hd : d.ts with
  | nil => rfl
  | cons x xs =>
    rw [hd] at h
    injection h with h
    subst h
    unfold steps
    rw [List.drop_one, List.tail_cons, List.filter_cons, if_neg (by simp; omega)]

theorem run_of_loop {re : Bool} {p : Params} {sb : SB} {d : Imu (Vec3 ℝ)} {tstart tend : ℤ}
    (hc : Covers d tstart tend) (ht : tstart < tend) (n : Nat) (hn : d.ts.length ≤ n + 1)
    (ho : ∀ p' sb', (if re = true then redo p' sb' d tstart tend else preint p' sb' d tstart tend) =
      loop re p' sb' d tend n 0 { time := tstart }) :
    ∃ s l, loop re p sb d tend n 0 { time := tstart } = .ok s ∧ Run re p sb d tstart tend s l ∧ l ≠ [] ∧
      s.time = tend := by
  obtain ⟨f, hf, hfs⟩ := hc.first
  obtain ⟨b, hb, hbe⟩ := hc.last
  have h0 : d.ts[0]? = some f := by rw [← List.head?_eq_getElem?]; exact hf
  obtain ⟨s, e1, e2, e3⟩ := loop_ok (re := re) (p := p) (sb := sb) hc.full hb hbe n 0
    { time := tstart } (by omega) ht h0 (by omega) (fun _ => hfs)
  obtain ⟨l, i1, i2, i3, i4, i5, i6, i7, i9, i8⟩ := loop_steps n 0 _ s e1
  refine ⟨s, l, e1, ⟨i1, by simpa using i2, i3, by rw [i4, e2], i6, ?_,
    i9 hc.full (fun t0 h => by rw [h0] at h; injection h with h; simp only; omega) ht,
    fun p' sb' => by rw [ho, i8 p' sb' { time := tstart } rfl rfl, Nat.zero_add]⟩, ?_, e2⟩
  · intro hp
    rw [if_pos ht, i7 hc.full hp (fun t0 h => by rw [h0] at h; injection h with h; simp only; omega) ht e2]
    exact steps_drop hf hfs
  · rintro rfl
    simp only [List.length_nil] at i2
    omega

theorem nextTime_or {d : Imu (Vec3 ℝ)} {tend : ℤ} {k : Nat} (h : k < d.ts.length) :
    ∃ t, nextTime d tend k = .ok t := by
  unfold nextTime
  by_cases hk : k + 1 = d.size
  · rw [if_pos hk]; exact ⟨_, rfl⟩
  · rw [if_neg hk]
    have : k + 1 ≠ d.ts.length := hk
    exact ⟨_, at_lt (by omega)⟩

/-- Once at the end, the loop does nothing more. -/
theorem loop_idle {re : Bool} {p : Params} {sb : SB} {d : Imu (Vec3 ℝ)} {tend : ℤ} (hf : Full d)
    (n k : Nat) (s : Loop) (hn : k + n < d.ts.length) (ht : tend ≤ s.time) :
    loop re p sb d tend n k s = .ok s := by
  induction n generalizing k with
  | zero => rfl
  | succ n ih =>
    rw [loop]
    obtain ⟨m, hm⟩ := samples_ok hf (k := k) (by omega)
    obtain ⟨t1, h1⟩ := nextTime_or (tend := tend) (k := k) (show k < d.ts.length by omega)
    rw [hm, at_lt (l := d.ts) (k := k) (by omega), h1]
    show (body re p sb tend s m.1 m.2.1 m.2.2.1 m.2.2.2 d.ts[k] t1 >>= fun b =>
      if b.2 then Except.ok b.1 else loop re p sb d tend n (k + 1) b.1) = .ok s
    have hb : body re p sb tend s m.1 m.2.1 m.2.2.1 m.2.2.2 d.ts[k] t1 = .ok (s, false) := by
      unfold body
      simp only
      by_cases h1 : t1 - s.time < 0
      · rw [if_pos h1]
      rw [if_neg h1, if_pos]
      by_contra hc
      have := ns2sec_pos.mp (not_le.mp hc)
      split at this <;> omega
    rw [hb]
    exact ih (k + 1) (by omega)

/-- `propagation` over covering data. -/
theorem preint_run (p : Params) (sb : SB) {d : Imu (Vec3 ℝ)} {tstart tend : ℤ}
    (hc : Covers d tstart tend) (ht : tstart ≤ tend) :
    ∃ s l, preint p sb d tstart tend = .ok s ∧ Run false p sb d tstart tend s l ∧ (tstart < tend → l ≠ []) := by
  obtain ⟨f, hf, hfs⟩ := hc.first
  obtain ⟨b, hb, hbe⟩ := hc.last
  have e : ∀ p sb, preint p sb d tstart tend = loop false p sb d tend (d.size - 1) 0 { time := tstart } := by
    intro p sb
    unfold preint
    rw [hf, hb]
    simp only
    rw [if_neg (by omega), if_neg (by omega)]
  rw [e]
  have hpos : 0 < d.ts.length := by
    cases h : d.ts with
    | nil => rw [h] at hf; cases hf
    | cons x xs => simp
  by_cases hlt : tstart < tend
  · obtain ⟨s, l, h1, h2, h3, -⟩ := run_of_loop (re := false) (p := p) (sb := sb) hc hlt (d.size - 1)
      (by show d.ts.length ≤ d.ts.length - 1 + 1; omega) (fun p' sb' => e p' sb')
    exact ⟨s, l, h1, h2, fun _ => h3⟩
  · have : tstart = tend := by omega
    subst this
    have hid : ∀ p sb, loop false p sb d tstart (d.size - 1) 0 { time := tstart } = .ok { time := tstart } :=
      fun p sb => loop_idle hc.full _ _ _ (by show 0 + (d.ts.length - 1) < d.ts.length; omega) (le_refl _)
    refine ⟨_, [], hid p sb,
      ⟨rfl, rfl, by simp, by simp [ns2sec_zero], by simp, ?_, by simp, fun p' sb' => (e p' sb').trans (hid p' sb')⟩,
      fun h => absurd h hlt⟩
    intro _
    rw [if_neg hlt]; rfl

/-- `redoPreintegration` over covering data and an interval of some length. -/
theorem redo_run (p : Params) (sb : SB) {d : Imu (Vec3 ℝ)} {tstart tend : ℤ}
    (hc : Covers d tstart tend) (ht : tstart < tend) :
    ∃ s l, redo p sb d tstart tend = .ok s ∧ Run true p sb d tstart tend s l ∧ l ≠ [] := by
  obtain ⟨s, l, h1, h2, h3, -⟩ := run_of_loop (re := true) (p := p) (sb := sb) hc ht d.size
    (by show d.ts.length ≤ d.ts.length + 1; omega) (fun _ _ => rfl)
  exact ⟨s, l, h1, h2, h3⟩

theorem fold_dt (re : Bool) (p : Params) (sb : SB) (l : List Seg) (I : Integ) :
    (l.foldl (integrate re p sb) I).dt = I.dt + (l.map Seg.dt).sum := by
  induction l generalizing I with
  | nil => simp
  | cons g l ih =>
    rw [List.foldl_cons, ih, List.map_cons, List.sum_cons]
    show I.dt + g.dt + _ = _
    ring

theorem Run.dt {re : Bool} {p : Params} {sb : SB} {d : Imu (Vec3 ℝ)} {tstart tend : ℤ} {s : Loop}
    {l : List Seg} (h : Run re p sb d tstart tend s l) : s.I.dt = ns2sec (tend - tstart) := by
  rw [h.fold, fold_dt, h.sum]
  show 0 + _ = _
  rw [zero_add]

theorem mean_self (x : Vec3 ℝ) : (1 / 2 : ℝ) • (x + x) = x := by
  rw [← two_smul ℝ x, smul_smul]; norm_num

end Yac.Imu
