import Verif.Rig.Model

/-! C154: the cameras and the IMU of the visual-inertial calibrator. -/

namespace Yac.Rig

variable {V : Type}

/-- Some member owns the parameter: it is allocated. -/
def Alive (m : Rig V) (x : Nat) : Prop := ∃ s v, m.own s = some (x, v)

/-- What a history adds: the index of a camera, or nothing for the IMU. -/
def key : Op V → Option Int
  | .imu _ _ _ _ => none
  | .camera i _ _ _ _ _ => some i

theorem bindOk {α β : Type} {x : Except Fault α} {f : α → Except Fault β} {b : β} (h : x >>= f = .ok b) :
    ∃ a, x = .ok a ∧ f a = .ok b := by
  cases x with
  | error e => exact absurd h (by intro h; cases h)
  | ok a => exact ⟨a, rfl, h⟩

/-- Numbers are new, and a parameter has one owner. -/
structure Inv (m : Rig V) : Prop where
  old : ∀ s x v, m.own s = some (x, v) → x < m.next
  blocks : ∀ x ∈ m.blocks, x < m.next
  consts : ∀ x ∈ m.consts, x < m.next
  one : ∀ s t x v w, m.own s = some (x, v) → m.own t = some (x, w) → s = t

theorem inv_new : Inv (Rig.new : Rig V) := by
  refine ⟨fun s x v h => ?_, fun x h => ?_, fun x h => ?_, fun s t x v w h => ?_⟩ <;> cases h

theorem own_same (m : Rig V) (s : Slot) (v : V) (a b : Bool) : (register m s v a b).own s = some (m.next, v) := if_pos rfl

theorem own_other (m : Rig V) {s t : Slot} (h : t ≠ s) (v : V) (a b : Bool) : (register m s v a b).own t = m.own t := if_neg h

theorem own_inv {m : Rig V} {s t : Slot} {v w : V} {a b : Bool} {x : Nat} (h : (register m s v a b).own t = some (x, w)) :
    (t = s ∧ x = m.next) ∨ (t ≠ s ∧ m.own t = some (x, w)) := by
  by_cases e : t = s
  · subst e
    rw [own_same] at h
    injection h with h
    injection h with h1 _
    exact .inl ⟨rfl, h1.symm⟩
  · rw [own_other m e] at h
    exact .inr ⟨e, h⟩

theorem blocks_iff (m : Rig V) (s : Slot) (v : V) (a b : Bool) (x : Nat) :
    x ∈ (register m s v a b).blocks ↔ (a = true ∧ x = m.next) ∨ x ∈ m.blocks := by
  cases a <;> simp [register]

theorem consts_iff (m : Rig V) (s : Slot) (v : V) (a b : Bool) (x : Nat) :
    x ∈ (register m s v a b).consts ↔ (b = true ∧ x = m.next) ∨ x ∈ m.consts := by
  cases b <;> simp [register]

theorem inv_register {m : Rig V} (h : Inv m) (s : Slot) (v : V) (a b : Bool) : Inv (register m s v a b) := by
  have hn : (register m s v a b).next = m.next + 1 := rfl
  refine ⟨fun t x w e => ?_, fun x e => ?_, fun x e => ?_, fun t u x w z e e' => ?_⟩
  · rw [hn]
    rcases own_inv e with ⟨_, rfl⟩ | ⟨_, e⟩
    · omega
    · have := h.old _ _ _ e
      omega
  · rw [hn]
    rcases (blocks_iff m s v a b x).1 e with ⟨_, rfl⟩ | e
    · omega
    · have := h.blocks _ e
      omega
  · rw [hn]
    rcases (consts_iff m s v a b x).1 e with ⟨_, rfl⟩ | e
    · omega
    · have := h.consts _ e
      omega
  · rcases own_inv e with ⟨h1, h2⟩ | ⟨_, e⟩ <;> rcases own_inv e' with ⟨h3, h4⟩ | ⟨_, e'⟩
    · rw [h1, h3]
    · have := h.old _ _ _ e'
      omega
    · have := h.old _ _ _ e
      omega
    · exact h.one _ _ _ _ _ e e'

/-- A freed parameter the problem points to. -/
def Dangling (m : Rig V) (x : Nat) : Prop := x ∈ m.blocks ∧ ¬ Alive m x

theorem dangling_register {m : Rig V} (h : Inv m) {x : Nat} (hx : Dangling m x) (s : Slot) (v : V) (a b : Bool) :
    Dangling (register m s v a b) x := by
  refine ⟨(blocks_iff ..).2 (.inr hx.1), ?_⟩
  rintro ⟨t, w, e⟩
  rcases own_inv e with ⟨_, h2⟩ | ⟨_, e⟩
  · have := h.blocks _ hx.1
    omega
  · exact hx.2 ⟨t, w, e⟩

theorem dangling_replaced {m : Rig V} (h : Inv m) {s : Slot} {x : Nat} {w : V} (hs : m.own s = some (x, w)) (hx : x ∈ m.blocks)
    (v : V) (a b : Bool) : Dangling (register m s v a b) x := by
  refine ⟨(blocks_iff ..).2 (.inr hx), ?_⟩
  rintro ⟨t, z, e⟩
  rcases own_inv e with ⟨_, h2⟩ | ⟨hne, e⟩
  · have := h.old _ _ _ hs
    omega
  · exact hne (h.one _ _ _ _ _ e hs)

theorem clean_register {m : Rig V} (hc : ∀ x ∈ m.blocks, Alive m x) {s : Slot} (hs : m.own s = none) (v : V) (a b : Bool) :
    ∀ x ∈ (register m s v a b).blocks, Alive (register m s v a b) x := by
  intro x hx
  rcases (blocks_iff ..).1 hx with ⟨_, rfl⟩ | hx
  · exact ⟨s, v, own_same m s v a b⟩
  · obtain ⟨t, w, e⟩ := hc x hx
    have ht : t ≠ s := by
      rintro rfl
      rw [hs] at e
      cases e
    exact ⟨t, w, (own_other m ht v a b).trans e⟩

/-- The members a call assigns. -/
def Main : Option Int → Slot
  | none => .imu
  | some i => .ext i

/-- The other one. -/
def Side : Option Int → Slot
  | none => .delay
  | some i => .intr i

/-- The state after a history whose keys are `ks`. -/
structure Hist (m : Rig V) (ks : List (Option Int)) : Prop extends Inv m where
  main : ∀ k, k ∈ ks → ∃ x v, m.own (Main k) = some (x, v) ∧ x ∈ m.blocks
  mainNone : ∀ k, k ∉ ks → m.own (Main k) = none
  sideNone : ∀ k, k ∉ ks → m.own (Side k) = none

theorem main_ne {k l : Option Int} (h : k ≠ l) : Main k ≠ Main l := by
  cases k <;> cases l <;> simp_all [Main]

theorem side_ne {k l : Option Int} (h : k ≠ l) : Side k ≠ Side l := by
  cases k <;> cases l <;> simp_all [Side]

theorem main_side (k l : Option Int) : Main k ≠ Side l := by
  cases k <;> cases l <;> simp [Main, Side]

/-- Every call assigns the two members of its key, the main one into the problem. -/
theorem step_eq {m m' : Rig V} {o : Op V} (h : step m o = .ok m') :
    ∃ v w a b c, m' = register (register m (Side (key o)) v a b) (Main (key o)) w true c ∨
      m' = register (register m (Main (key o)) w true c) (Side (key o)) v a b := by
  cases o with
  | imu e d fe fd =>
    cases h
    exact ⟨d, e, true, fd, fe, .inr rfl⟩
  | camera i ok v e fv fe =>
    cases ok with
    | false => cases h
    | true =>
      cases h
      exact ⟨v, e, fv, fv, fe, .inl rfl⟩

theorem hist_step {m m' : Rig V} {ks : List (Option Int)} (h : Hist m ks) {o : Op V} (e : step m o = .ok m') :
    Hist m' (key o :: ks) ∧ (∀ x, Dangling m x → Dangling m' x) ∧ (key o ∈ ks → ∃ x, Dangling m' x) ∧
      (key o ∉ ks → (∀ x ∈ m.blocks, Alive m x) → ∀ x ∈ m'.blocks, Alive m' x) := by
  obtain ⟨v, w, a, b, c, rfl | rfl⟩ := step_eq e
  · have h1 := inv_register h.toInv (Side (key o)) v a b
    have h2 := inv_register h1 (Main (key o)) w true c
    refine ⟨⟨h2, fun k hk => ?_, fun k hk => ?_, fun k hk => ?_⟩, fun x hx => ?_, fun hk => ?_, fun hk hc => ?_⟩
    · by_cases hko : k = key o
      · subst hko
        exact ⟨_, w, own_same _ _ _ _ _, (blocks_iff ..).2 (.inl ⟨rfl, rfl⟩)⟩
      · rcases List.mem_cons.1 hk with hk | hk
        · exact absurd hk hko
        · obtain ⟨x, z, hx, hb⟩ := h.main k hk
          refine ⟨x, z, ?_, (blocks_iff ..).2 (.inr ((blocks_iff ..).2 (.inr hb)))⟩
          rw [own_other _ (main_ne hko), own_other _ (main_side _ _)]
          exact hx
    · rw [List.mem_cons, not_or] at hk
      rw [own_other _ (main_ne hk.1), own_other _ (main_side _ _)]
      exact h.mainNone k hk.2
    · rw [List.mem_cons, not_or] at hk
      rw [own_other _ (main_side _ _).symm, own_other _ (side_ne hk.1)]
      exact h.sideNone k hk.2
    · exact dangling_register h1 (dangling_register h.toInv hx _ _ _ _) _ _ _ _
    · obtain ⟨x, z, hx, hb⟩ := h.main _ hk
      refine ⟨x, dangling_replaced h1 (w := z) ?_ ((blocks_iff ..).2 (.inr hb)) _ _ _⟩
      rw [own_other _ (main_side _ _)]
      exact hx
    · refine clean_register (clean_register hc (h.sideNone _ hk) _ _ _) ?_ _ _ _
      rw [own_other _ (main_side _ _)]
      exact h.mainNone _ hk
  · have h1 := inv_register h.toInv (Main (key o)) w true c
    have h2 := inv_register h1 (Side (key o)) v a b
    refine ⟨⟨h2, fun k hk => ?_, fun k hk => ?_, fun k hk => ?_⟩, fun x hx => ?_, fun hk => ?_, fun hk hc => ?_⟩
    · by_cases hko : k = key o
      · subst hko
        refine ⟨_, w, ?_, (blocks_iff ..).2 (.inr ((blocks_iff ..).2 (.inl ⟨rfl, rfl⟩)))⟩
        rw [own_other _ (main_side _ _)]
        exact own_same _ _ _ _ _
      · rcases List.mem_cons.1 hk with hk | hk
        · exact absurd hk hko
        · obtain ⟨x, z, hx, hb⟩ := h.main k hk
          refine ⟨x, z, ?_, (blocks_iff ..).2 (.inr ((blocks_iff ..).2 (.inr hb)))⟩
          rw [own_other _ (main_side _ _), own_other _ (main_ne hko)]
          exact hx
    · rw [List.mem_cons, not_or] at hk
      rw [own_other _ (main_side _ _), own_other _ (main_ne hk.1)]
      exact h.mainNone k hk.2
    · rw [List.mem_cons, not_or] at hk
      rw [own_other _ (side_ne hk.1), own_other _ (main_side _ _).symm]
      exact h.sideNone k hk.2
    · exact dangling_register h1 (dangling_register h.toInv hx _ _ _ _) _ _ _ _
    · obtain ⟨x, z, hx, hb⟩ := h.main _ hk
      exact ⟨x, dangling_register h1 (dangling_replaced h.toInv hx hb _ _ _) _ _ _ _⟩
    · refine clean_register (clean_register hc (h.mainNone _ hk) _ _ _) ?_ _ _ _
      rw [own_other _ (main_side _ _).symm]
      exact h.sideNone _ hk

theorem run_hist : ∀ (os : List (Op V)) {m m' : Rig V} {ks : List (Option Int)}, Hist m ks → run m os = .ok m' →
    Hist m' ((os.map key).reverse ++ ks) ∧ (∀ x, Dangling m x → Dangling m' x) ∧
      (¬ ((os.map key).Nodup ∧ ∀ k ∈ os.map key, k ∉ ks) → ∃ x, Dangling m' x) ∧
      ((os.map key).Nodup → (∀ k ∈ os.map key, k ∉ ks) → (∀ x ∈ m.blocks, Alive m x) → ∀ x ∈ m'.blocks, Alive m' x)
  | [], m, m', ks, h, e => by
    cases e
    exact ⟨h, fun _ h => h, fun hn => absurd ⟨List.nodup_nil, fun k hk => by cases hk⟩ hn, fun _ _ hc => hc⟩
  | o :: os, m, m', ks, h, e => by
    obtain ⟨m1, e1, e2⟩ := bindOk e
    obtain ⟨h1, d1, r1, c1⟩ := hist_step h e1
    obtain ⟨h2, d2, r2, c2⟩ := run_hist os h1 e2
    refine ⟨?_, fun x hx => d2 x (d1 x hx), fun hn => ?_, fun hnd hk hc => ?_⟩
    · have : ((o :: os).map key).reverse ++ ks = (os.map key).reverse ++ key o :: ks := by simp
      rw [this]
      exact h2
    · by_cases hk : key o ∈ ks
      · obtain ⟨x, hx⟩ := r1 hk
        exact ⟨x, d2 x hx⟩
      · refine r2 fun ⟨hnd, hks⟩ => hn ⟨?_, ?_⟩
        · rw [List.map_cons, List.nodup_cons]
          exact ⟨fun hin => hks _ hin (.head _), hnd⟩
        · intro k hkin
          rw [List.map_cons, List.mem_cons] at hkin
          rcases hkin with rfl | hkin
          · exact hk
          · exact fun hk' => hks k hkin (.tail _ hk')
    · rw [List.map_cons, List.nodup_cons] at hnd
      rw [List.map_cons] at hk
      refine c2 hnd.2 (fun k hkin => ?_) (c1 (hk _ (.head _)) hc)
      rw [List.mem_cons, not_or]
      refine ⟨?_, hk k (.tail _ hkin)⟩
      rintro rfl
      exact hnd.1 hkin

theorem hist_new : Hist (Rig.new : Rig V) [] :=
  ⟨inv_new, fun _ h => absurd h List.not_mem_nil, fun _ _ => rfl, fun _ _ => rfl⟩

/-- **C154, the problem points at parameters that exist** exactly if no camera, and no IMU, has been added twice. -/
theorem C154_alive_partial (os : List (Op V)) (m : Rig V) (h : run .new os = .ok m) :
    (∀ x ∈ m.blocks, Alive m x) ↔ (os.map key).Nodup := by
  obtain ⟨_, _, r, c⟩ := run_hist os hist_new h
  constructor
  · intro ha
    by_contra hn
    obtain ⟨x, hx, hd⟩ := r fun hh => hn hh.1
    exact hd (ha x hx)
  · intro hn
    refine c hn (fun k _ hk => by cases hk) fun x hx => by cases hx

/-- **C154, refuted**: the IMU is added twice, for instance to correct its parameters, and the problem points at freed memory. -/
theorem C154_again_refuted :
    let os : List (Op ℕ) := [.camera 0 true 1 2 true true, .imu 3 4 false false, .imu 5 4 false false]
    ∃ m : Rig ℕ, run .new os = .ok m ∧
    getImu m = .ok 5 ∧ ∃ x ∈ m.blocks, ¬ Alive m x := by
  intro os
  refine ⟨_, rfl, rfl, ?_⟩
  by_contra hn
  push Not at hn
  exact absurd ((C154_alive_partial os _ rfl).1 hn) (by decide)

/-- The slot is not assigned by a call. -/
theorem step_other {m m' : Rig V} {o : Op V} (e : step m o = .ok m') {s : Slot} (hm : s ≠ Main (key o)) (hs : s ≠ Side (key o)) :
    m'.own s = m.own s := by
  obtain ⟨v, w, a, b, c, rfl | rfl⟩ := step_eq e
  · rw [own_other _ hm, own_other _ hs]
  · rw [own_other _ hs, own_other _ hm]

theorem run_other : ∀ (os : List (Op V)) {m m' : Rig V}, run m os = .ok m' → ∀ k, (∀ o ∈ os, key o ≠ k) →
    m'.own (Main k) = m.own (Main k) ∧ m'.own (Side k) = m.own (Side k)
  | [], m, m', e, k, _ => by cases e; exact ⟨rfl, rfl⟩
  | o :: os, m, m', e, k, hk => by
    obtain ⟨m1, e1, e2⟩ := bindOk e
    obtain ⟨a, b⟩ := run_other os e2 k fun p hp => hk p (.tail _ hp)
    have hne : k ≠ key o := fun h => hk o (.head _) h.symm
    exact ⟨a.trans (step_other e1 (main_ne hne) (main_side _ _)), b.trans (step_other e1 (main_side _ _).symm (side_ne hne))⟩

theorem run_append : ∀ (os ps : List (Op V)) {m m' : Rig V}, run m (os ++ ps) = .ok m' → ∃ n, run m os = .ok n ∧ run n ps = .ok m'
  | [], ps, m, m', e => ⟨m, rfl, e⟩
  | o :: os, ps, m, m', e => by
    obtain ⟨m1, e1, e2⟩ := bindOk e
    obtain ⟨n, h1, h2⟩ := run_append os ps e2
    refine ⟨n, ?_, h2⟩
    show (step m o >>= _) = _
    rw [e1]
    exact h1

/-- The blocks and constants that later calls add are new. -/
theorem step_blocks {m m' : Rig V} {o : Op V} (e : step m o = .ok m') :
    m.next ≤ m'.next ∧ ∀ x < m.next, (x ∈ m'.blocks ↔ x ∈ m.blocks) ∧ (x ∈ m'.consts ↔ x ∈ m.consts) := by
  have key2 : ∀ (n : Rig V) (s : Slot) (v : V) (a b : Bool) (x : ℕ), x < n.next →
      (x ∈ (register n s v a b).blocks ↔ x ∈ n.blocks) ∧ (x ∈ (register n s v a b).consts ↔ x ∈ n.consts) := by
    intro n s v a b x hx
    rw [blocks_iff, consts_iff]
    exact ⟨⟨fun h => h.resolve_left fun h => by omega, .inr⟩, ⟨fun h => h.resolve_left fun h => by omega, .inr⟩⟩
  obtain ⟨v, w, a, b, c, rfl | rfl⟩ := step_eq e
  · refine ⟨by show m.next ≤ m.next + 1 + 1; omega, fun x hx => ?_⟩
    have h2 := key2 (register m (Side (key o)) v a b) (Main (key o)) w true c x (by show x < m.next + 1; omega)
    have h1 := key2 m (Side (key o)) v a b x hx
    exact ⟨h2.1.trans h1.1, h2.2.trans h1.2⟩
  · refine ⟨by show m.next ≤ m.next + 1 + 1; omega, fun x hx => ?_⟩
    have h2 := key2 (register m (Main (key o)) w true c) (Side (key o)) v a b x (by show x < m.next + 1; omega)
    have h1 := key2 m (Main (key o)) w true c x hx
    exact ⟨h2.1.trans h1.1, h2.2.trans h1.2⟩

theorem run_blocks : ∀ (os : List (Op V)) {m m' : Rig V}, run m os = .ok m' →
    ∀ x < m.next, (x ∈ m'.blocks ↔ x ∈ m.blocks) ∧ (x ∈ m'.consts ↔ x ∈ m.consts)
  | [], m, m', e, x, _ => by cases e; exact ⟨Iff.rfl, Iff.rfl⟩
  | o :: os, m, m', e, x, hx => by
    obtain ⟨m1, e1, e2⟩ := bindOk e
    obtain ⟨hle, h1⟩ := step_blocks e1
    obtain ⟨a, b⟩ := run_blocks os e2 x (by omega)
    exact ⟨a.trans (h1 x hx).1, b.trans (h1 x hx).2⟩

/-- The parameter of a member is in the problem, and constant. -/
def Known (m : Rig V) (s : Slot) : Prop := ∃ x v, m.own s = some (x, v) ∧ x ∈ m.blocks
/-- … and constant. -/
def Fixed (m : Rig V) (s : Slot) : Prop := ∃ x v, m.own s = some (x, v) ∧ x ∈ m.consts

theorem known_iff {m : Rig V} {s : Slot} {x : Nat} {v : V} (h : m.own s = some (x, v)) :
    (Known m s ↔ x ∈ m.blocks) ∧ (Fixed m s ↔ x ∈ m.consts) := by
  constructor <;> constructor
  · rintro ⟨y, w, e, hy⟩
    rw [h] at e
    cases e
    exact hy
  · exact fun hx => ⟨x, v, h, hx⟩
  · rintro ⟨y, w, e, hy⟩
    rw [h] at e
    cases e
    exact hy
  · exact fun hx => ⟨x, v, h, hx⟩

theorem inv_run (os : List (Op V)) {m : Rig V} (h : run .new os = .ok m) : Inv m := (run_hist os hist_new h).1.toInv

/-- **C154, cameras.**  After any history, what the getters answer for a camera is what it was last added with, whatever was
added before and whichever other cameras and IMUs were added after; its extrinsics are in the problem and held constant exactly
if that was asked for, and its intrinsics are in the problem and constant exactly if they are fixed. -/
theorem C154_camera (pre post : List (Op V)) (i : Int) (ok : Bool) (v e : V) (fv fe : Bool) (m : Rig V)
    (h : run .new (pre ++ .camera i ok v e fv fe :: post) = .ok m) (hp : ∀ o ∈ post, key o ≠ some i) :
    getParams m i = .ok v ∧ getExtrinsics m i = .ok e ∧ Known m (.ext i) ∧ (Fixed m (.ext i) ↔ fe = true) ∧
      (Known m (.intr i) ↔ fv = true) ∧ (Fixed m (.intr i) ↔ fv = true) := by
  obtain ⟨n, h1, h2⟩ := run_append _ _ h
  obtain ⟨n', h3, h4⟩ := bindOk h2
  have hi := inv_run pre h1
  obtain ⟨hm, hs⟩ := run_other post h4 (some i) hp
  cases ok with
  | false => cases h3
  | true =>
    cases h3
    have hx := run_blocks post h4 n.next (by show n.next < n.next + 1 + 1; omega)
    have hy := run_blocks post h4 (n.next + 1) (by show n.next + 1 < n.next + 1 + 1; omega)
    have om : m.own (.ext i) = some (n.next + 1, e) := hm.trans (own_same ..)
    have os : m.own (.intr i) = some (n.next, v) := by
      refine hs.trans ?_
      show (register _ (Main (some i)) _ _ _).own (Side (some i)) = _
      rw [own_other _ (main_side _ _).symm]
      exact own_same ..
    have nb : n.next ∉ n.blocks := fun h => Nat.lt_irrefl _ (hi.blocks _ h)
    have nc : n.next ∉ n.consts := fun h => Nat.lt_irrefl _ (hi.consts _ h)
    have nc' : n.next + 1 ∉ n.consts := fun h => by have := hi.consts _ h; omega
    refine ⟨?_, ?_, ?_, ?_, ?_, ?_⟩
    · unfold getParams camAt
      rw [os]
    · unfold getExtrinsics camAt
      rw [om]
    · rw [(known_iff om).1, hy.1, blocks_iff]
      exact .inl ⟨rfl, rfl⟩
    · rw [(known_iff om).2, hy.2, consts_iff, consts_iff]
      show (fe = true ∧ n.next + 1 = n.next + 1) ∨ (fv = true ∧ n.next + 1 = n.next) ∨ n.next + 1 ∈ n.consts ↔ _
      simp [nc']
    · rw [(known_iff os).1, hx.1, blocks_iff, blocks_iff]
      show (true = true ∧ n.next = n.next + 1) ∨ (fv = true ∧ n.next = n.next) ∨ n.next ∈ n.blocks ↔ _
      simp [nb]
    · rw [(known_iff os).2, hx.2, consts_iff, consts_iff]
      show (fe = true ∧ n.next = n.next + 1) ∨ (fv = true ∧ n.next = n.next) ∨ n.next ∈ n.consts ↔ _
      simp [nc]

/-- **C154, IMU.** -/
theorem C154_imu (pre post : List (Op V)) (e d : V) (fe fd : Bool) (m : Rig V)
    (h : run .new (pre ++ .imu e d fe fd :: post) = .ok m) (hp : ∀ o ∈ post, key o ≠ none) :
    getImu m = .ok e ∧ getDelay m = .ok d ∧ Known m .imu ∧ (Fixed m .imu ↔ fe = true) ∧ Known m .delay ∧
      (Fixed m .delay ↔ fd = true) := by
  obtain ⟨n, h1, h2⟩ := run_append _ _ h
  obtain ⟨n', h3, h4⟩ := bindOk h2
  have hi := inv_run pre h1
  obtain ⟨hm, hs⟩ := run_other post h4 none hp
  cases h3
  have hx := run_blocks post h4 n.next (by show n.next < n.next + 1 + 1; omega)
  have hy := run_blocks post h4 (n.next + 1) (by show n.next + 1 < n.next + 1 + 1; omega)
  have os : m.own .delay = some (n.next + 1, d) := hs.trans (own_same ..)
  have om : m.own .imu = some (n.next, e) := by
    refine hm.trans ?_
    show (register _ (Side none) _ _ _).own (Main none) = _
    rw [own_other _ (main_side _ _)]
    exact own_same ..
  have nc : n.next ∉ n.consts := fun h => Nat.lt_irrefl _ (hi.consts _ h)
  have nc' : n.next + 1 ∉ n.consts := fun h => by have := hi.consts _ h; omega
  refine ⟨?_, ?_, ?_, ?_, ?_, ?_⟩
  · unfold getImu imuAt
    rw [om]
  · unfold getDelay imuAt
    rw [os]
  · rw [(known_iff om).1, hx.1, blocks_iff, blocks_iff]
    exact .inr (.inl ⟨rfl, rfl⟩)
  · rw [(known_iff om).2, hx.2, consts_iff, consts_iff]
    show (fd = true ∧ n.next = n.next + 1) ∨ (fe = true ∧ n.next = n.next) ∨ n.next ∈ n.consts ↔ _
    simp [nc]
  · rw [(known_iff os).1, hy.1, blocks_iff]
    exact .inl ⟨rfl, rfl⟩
  · rw [(known_iff os).2, hy.2, consts_iff, consts_iff]
    show (fd = true ∧ n.next + 1 = n.next + 1) ∨ (fe = true ∧ n.next + 1 = n.next) ∨ n.next + 1 ∈ n.consts ↔ _
    simp [nc']

/-- **C154, nothing to answer.**  A camera that was never added raises an exception; without an IMU the getters use a null pointer;
a camera model that does not exist ends the program. -/
theorem C154_unknown (os : List (Op V)) (m : Rig V) (h : run .new os = .ok m) :
    (∀ i, (∀ o ∈ os, key o ≠ some i) → getParams m i = .error .exn ∧ getExtrinsics m i = .error .exn) ∧
    ((∀ o ∈ os, key o ≠ none) → getImu m = .error .oob ∧ getDelay m = .error .oob) ∧
    ∀ i v e fv fe, step m (.camera i false v e fv fe) = .error .fatal := by
  refine ⟨fun i hi => ?_, fun hi => ?_, fun _ _ _ _ _ => rfl⟩
  · obtain ⟨a, b⟩ := run_other os h (some i) hi
    have a : m.own (.ext i) = none := a
    have b : m.own (.intr i) = none := b
    unfold getParams getExtrinsics camAt
    rw [a, b]
    exact ⟨rfl, rfl⟩
  · obtain ⟨a, b⟩ := run_other os h none hi
    have a : m.own .imu = none := a
    have b : m.own .delay = none := b
    unfold getImu getDelay imuAt
    rw [a, b]
    exact ⟨rfl, rfl⟩

/-- C154 witness: two cameras and an IMU. -/
example :
    let os : List (Op ℕ) := [.camera 0 true 1 2 true false, .imu 3 4 false true, .camera 1 true 5 6 false true]
    ∃ m : Rig ℕ, run .new os = .ok m ∧
    getParams m 0 = .ok 1 ∧ getExtrinsics m 1 = .ok 6 ∧ getDelay m = .ok 4 ∧ m.blocks = [5, 3, 2, 1, 0] ∧ m.consts = [5, 3, 0] ∧
    ∀ x ∈ m.blocks, Alive m x :=
  ⟨_, rfl, rfl, rfl, rfl, rfl, rfl, (C154_alive_partial [.camera 0 true 1 2 true false, .imu 3 4 false true, .camera 1 true 5 6 false true] _ rfl).2
    (by decide)⟩

end Yac.Rig
