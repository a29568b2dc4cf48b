import Verif.Pnp.Model
import Verif.AprilGrid.Reads
import Verif.Cam.Props
import Verif.Ctraj.Lemmas

/-! C142: the pose of the target estimated from one image. -/

namespace Yac.Pnp
open Yac.Geom Yac.Cam Yac.AprilGrid Yac.AprilGrid.Spec Yac.Ctraj Matrix

/-! ## Specification -/

/-- A point of the target seen from the camera, for the pose (rotation `R`, position `t`) of the target. -/
noncomputable def seen (R : Mat3 ℝ) (t p : Vec3 ℝ) : Vec3 ℝ := R *ᵥ p + t

/-- Where a camera without distortion, with matrix `M`, shows a point in front of it. -/
noncomputable def shot (M : Mat3 ℝ) (q : Vec3 ℝ) : Vec2 := ![M 0 0 * (q 0 / q 2) + M 0 2, M 1 1 * (q 1 / q 2) + M 1 2]

/-- OpenCV solves the problems that have one solution: points shown exactly where one pose shows them, and no other,
with all of them in front of the camera. -/
def Exact (cv : Cv) : Prop :=
  ∀ (M : Mat3 ℝ) (objs : List (Vec3 ℝ)) (r t : Vec3 ℝ), 4 ≤ objs.length → (∀ p ∈ objs, 0 < seen (expRot r) t p 2) →
    (∀ R' t', IsRot R' → (∀ p ∈ objs, 0 < seen R' t' p 2) →
      (∀ p ∈ objs, shot M (seen R' t' p) = shot M (seen (expRot r) t p)) → R' = expRot r ∧ t' = t) →
    ∃ r', cv.pnp objs (objs.map fun p => some (shot M (seen (expRot r) t p))) M = some (r', t) ∧ expRot r' = expRot r

/-- The corner of the board, in its own coordinates. -/
noncomputable def corner (cols : ℕ) (size spacing : ℝ) (tag c : ℤ) : Vec3 ℝ :=
  let p := boardPoint cols size spacing tag.toNat c.toNat
  ![p.1, p.2.1, p.2.2]

/-- A pixel on the image, borders included. -/
def OnImage (res : Fin 2 → ℤ) (z : ℝ × ℝ) : Prop := 0 ≤ z.1 ∧ z.1 ≤ res 0 ∧ 0 ≤ z.2 ∧ z.2 ≤ res 1

/-- The camera is not in the plane of the target (which it would see edge-on). -/
def OffPlane (R : Mat3 ℝ) (t : Vec3 ℝ) : Prop := R 0 2 * t 0 + R 1 2 * t 1 + R 2 2 * t 2 ≠ 0

/-! ## One tag determines the pose -/

theorem seen_apply (R : Mat3 ℝ) (t : Vec3 ℝ) (x y : ℝ) (i : Fin 3) :
    seen R t ![x, y, 0] i = R i 0 * x + R i 1 * y + t i := by
  simp [seen, mulVec, dotProduct, Fin.sum_univ_three]

/-- C142: two poses that put the four corners of a tag in front of the camera and show them at the same four pixels
are the same pose, unless the camera is in the plane of the target. -/
theorem C142_unique (M : Mat3 ℝ) (hx : M 0 0 ≠ 0) (hy : M 1 1 ≠ 0) (R R' : Mat3 ℝ) (t t' : Vec3 ℝ) (hR : IsRot R) (hR' : IsRot R')
    (hoff : OffPlane R t) (x y s : ℝ) (hs : s ≠ 0)
    (h : ∀ p ∈ [![x, y, 0], ![x + s, y, 0], ![x + s, y + s, 0], ![x, y + s, 0]],
      0 < seen R t p 2 ∧ 0 < seen R' t' p 2 ∧ shot M (seen R' t' p) = shot M (seen R t p)) : R' = R ∧ t' = t := by
  have key : ∀ p ∈ [![x, y, 0], ![x + s, y, 0], ![x + s, y + s, 0], ![x, y + s, (0 : ℝ)]], ∃ l : ℝ, 0 < l ∧
      ∀ i, seen R' t' p i = l * seen R t p i := by
    intro p hp
    obtain ⟨a, b, c⟩ := h p hp
    have c0 := congrFun c 0
    have c1 := congrFun c 1
    simp only [shot, cons_val_zero, cons_val_one, add_left_inj] at c0 c1
    have c0 := mul_left_cancel₀ hx c0
    have c1 := mul_left_cancel₀ hy c1
    refine ⟨seen R' t' p 2 / seen R t p 2, div_pos b a, ?_⟩
    intro i
    have a' := a.ne'
    have b' := b.ne'
    rw [div_eq_div_iff b' a'] at c0 c1
    fin_cases i
    · show seen R' t' p 0 = _ / _ * seen R t p 0
      field_simp; linarith
    · show seen R' t' p 1 = _ / _ * seen R t p 1
      field_simp; linarith
    · show seen R' t' p 2 = _ / _ * seen R t p 2
      field_simp
  obtain ⟨l0, p0, e0⟩ := key ![x, y, 0] (by simp)
  obtain ⟨l1, p1, e1⟩ := key ![x + s, y, 0] (by simp)
  obtain ⟨l2, p2, e2⟩ := key ![x + s, y + s, 0] (by simp)
  obtain ⟨l3, p3, e3⟩ := key ![x, y + s, 0] (by simp)
  simp only [seen_apply] at e0 e1 e2 e3
  have E := hR.entries
  have E' := hR'.entries
  -- the parallelogram
  have q : ∀ i, (l0 - l1 + l2 - l3) * (R i 0 * x + R i 1 * y + t i) + s * (l2 - l1) * R i 0 + s * (l2 - l3) * R i 1 = 0 := by
    intro i; linear_combination -(e0 i) + e1 i - e2 i + e3 i
  have z0 : (l0 - l1 + l2 - l3) * (R 0 2 * t 0 + R 1 2 * t 1 + R 2 2 * t 2) = 0 := by
    linear_combination R 0 2 * q 0 + R 1 2 * q 1 + R 2 2 * q 2 -
      ((l0 - l1 + l2 - l3) * x + s * (l2 - l1)) * E.c02 - ((l0 - l1 + l2 - l3) * y + s * (l2 - l3)) * E.c12
  have z1 : l0 - l1 + l2 - l3 = 0 := (mul_eq_zero.mp z0).resolve_right hoff
  rw [z1] at q
  have a1 : s * (l2 - l1) = 0 := by
    linear_combination R 0 0 * q 0 + R 1 0 * q 1 + R 2 0 * q 2 - s * (l2 - l1) * E.c00 - s * (l2 - l3) * E.c01
  have a2 : s * (l2 - l3) = 0 := by
    linear_combination R 0 1 * q 0 + R 1 1 * q 1 + R 2 1 * q 2 - s * (l2 - l1) * E.c01 - s * (l2 - l3) * E.c11
  have b1 : l1 = l2 := by have := (mul_eq_zero.mp a1).resolve_left hs; linarith
  have b3 : l3 = l2 := by have := (mul_eq_zero.mp a2).resolve_left hs; linarith
  have b0 : l0 = l2 := by linarith
  subst b1 b3
  subst b0
  have u0 : ∀ i, R' i 0 = l0 * R i 0 := fun i => mul_left_cancel₀ hs (by linear_combination e1 i - e0 i)
  have u1 : ∀ i, R' i 1 = l0 * R i 1 := fun i => mul_left_cancel₀ hs (by linear_combination e3 i - e0 i)
  have one : l0 * l0 = 1 := by
    have := E'.c00
    rw [u0 0, u0 1, u0 2] at this
    linear_combination this - l0 * l0 * E.c00
  have hl : l0 = 1 := by nlinarith
  subst hl
  simp only [one_mul] at u0 u1 e0
  have hRR : R' = R := by
    apply mat3_eq
    · exact u0 0
    · exact u1 0
    · rw [E'.k02, E.k02, u0, u0, u1, u1]
    · exact u0 1
    · exact u1 1
    · rw [E'.k12, E.k12, u0, u0, u1, u1]
    · exact u0 2
    · exact u1 2
    · rw [E'.k22, E.k22, u0, u0, u1, u1]
  refine ⟨hRR, ?_⟩
  funext i
  have := e0 i
  rw [hRR] at this
  linarith

/-! ## What is handed to OpenCV -/

theorem valid_iff (res : Fin 2 → ℤ) (z : ℝ × ℝ) : valid res z ↔ OnImage res z := by
  unfold valid OnImage; tauto

open Classical in
theorem foldl_push (kind : Kind) (res : Fin 2 → ℤ) (k : Params) (l : List ((ℝ × ℝ) × (ℝ × ℝ × ℝ))) :
    ∀ acc, l.foldl (push kind res k) acc =
      (acc.1 ++ (l.filter (fun e => OnImage res e.1)).map (fun e => undistort kind k ![e.1.1, e.1.2]),
       acc.2 ++ (l.filter (fun e => OnImage res e.1)).map (fun e => ![e.2.1, e.2.2.1, e.2.2.2])) := by
  induction l with
  | nil => intro acc; simp
  | cons e l ih =>
    intro acc
    rw [List.foldl_cons, ih]
    by_cases h : OnImage res e.1
    · rw [push, if_pos ((valid_iff _ _).mpr h), List.filter_cons_of_pos (by simpa using h)]
      simp
    · rw [push, if_neg (fun c => h ((valid_iff _ _).mp c)), List.filter_cons_of_neg (by simpa using h)]

theorem Core.loop {ts : Int} {rows cols : Nat} {size spacing : ℝ} {m : CMap ℝ} {extra : Nat} {g : Grid ℝ}
    (h : Core ts rows cols size spacing m extra g) :
    forRows g.data (g.tagRows * g.tagCols * 4) (([], []) : List (ℝ × ℝ) × List (ℝ × ℝ × ℝ))
      (fun acc _ r => if r.flag > 0 then (acc.1 ++ [(r.kx, r.ky)], acc.2 ++ [(r.px, r.py, r.pz)]) else acc) =
    .ok ((held rows cols m).map (fun e => e.2), (held rows cols m).map (fun e => boardAt cols size spacing e.1)) := by
  rw [h.data, h.hrows, h.hcols, tableOf, forRows_tab]
  refine (congrArg Except.ok (fold_rows cols size spacing m (fun (acc : List (ℝ × ℝ) × List (ℝ × ℝ × ℝ)) _ r =>
    (acc.1 ++ [(r.kx, r.ky)], acc.2 ++ [(r.px, r.py, r.pz)])) _ _)).trans ?_
  have fold2 : ∀ (l : List (ℕ × (ℝ × ℝ))) (acc : List (ℝ × ℝ) × List (ℝ × ℝ × ℝ)),
      l.foldl (fun acc p => (acc.1 ++ [((rowFor cols size spacing p.1 (some p.2)).kx, (rowFor cols size spacing p.1 (some p.2)).ky)],
        acc.2 ++ [((rowFor cols size spacing p.1 (some p.2)).px, (rowFor cols size spacing p.1 (some p.2)).py,
          (rowFor cols size spacing p.1 (some p.2)).pz)])) acc =
      (acc.1 ++ l.map (fun p => p.2), acc.2 ++ l.map (fun p => boardPoint cols size spacing (p.1 / 4) (p.1 % 4))) := by
    intro l
    induction l with
    | nil => intro acc; simp
    | cons a l ih => intro acc; rw [List.foldl_cons, ih]; simp [rowFor]
  rw [held_map]
  simp only [List.map_map, Function.comp_def, boardAt, Int.toNat_natCast]
  exact congrArg Except.ok (fold2 _ _)

open Classical in
/-- The corners of the target held by the grid that are on the image, in order. -/
noncomputable def used (rows cols : ℕ) (res : Fin 2 → ℤ) (m : CMap ℝ) : List ((ℤ × ℤ) × (ℝ × ℝ)) :=
  (held rows cols m).filter (fun e => OnImage res e.2)

theorem mem_used {rows cols : ℕ} {res : Fin 2 → ℤ} {m : CMap ℝ} {t c : ℤ} {kp : ℝ × ℝ} :
    ((t, c), kp) ∈ used rows cols res m ↔ (Valid rows cols t c ∧ m t c = some kp) ∧ OnImage res kp := by
  classical
  unfold used
  rw [List.mem_filter, mem_held]
  simp

/-- The outcome for the points handed to OpenCV. -/
noncomputable def answer (cv : Cv) (k : Params) (objs : List (Vec3 ℝ)) (imgs : List (Option Vec2)) : Except Fault (ℤ × Option (Mat4 ℝ)) :=
  if imgs.length < 4 then .error .exn
  else match cv.pnp objs imgs (pinholeK (k 0) (k 1) (k 2) (k 3)) with
    | none => .ok (0, none)
    | some (rvec, tvec) => .ok (0, some (tf (expRot rvec) tvec))

theorem estimate_eq (cv : Cv) (kind : Kind) (res : Fin 2 → ℤ) (k : Params) {ts : ℤ} {rows cols : ℕ} {size spacing : ℝ}
    {m : CMap ℝ} {extra : ℕ} {g : Grid ℝ} (h : Core ts rows cols size spacing m extra g) (T : Option (Mat4 ℝ)) (h0 : g.nbDetections ≠ 0) :
    estimate cv kind res k g T = answer cv k ((used rows cols res m).map (fun e => corner cols size spacing e.1.1 e.1.2))
      ((used rows cols res m).map (fun e => undistort kind k ![e.2.1, e.2.2])) := by
  classical
  rw [estimate, if_neg (by rw [h.hinit]; decide), if_neg h0, Core.loop h, ok_bind]
  simp only
  rw [solvepnp, if_neg (by simp), List.zip_map', foldl_push]
  simp only [List.filter_map, List.map_map, List.nil_append]
  rfl

/-- C142: if the undistortion is exact at the corners on the image, and one tag is seen whole, the pose is exact. -/
theorem C142_general (cv : Cv) (hcv : Exact cv) (kind : Kind) (res : Fin 2 → ℤ) (k : Params) (h0 : k 0 ≠ 0) (h1 : k 1 ≠ 0)
    (ts : ℤ) (rows cols : ℕ) (size spacing : ℝ) (hs : size ≠ 0) (ops : List (Op ℝ)) (hv : ∀ op ∈ ops, OpValid rows cols op)
    (g : Grid ℝ) (hg : AprilGrid.run (new ts rows cols size spacing) ops = .ok g) (r t : Vec3 ℝ) (hoff : OffPlane (expRot r) t)
    (hsee : ∀ tag c kp, Valid rows cols tag c → Spec.run ops tag c = some kp → OnImage res kp →
      0 < seen (expRot r) t (corner cols size spacing tag c) 2 ∧
      undistort kind k ![kp.1, kp.2] = some (shot (pinholeK (k 0) (k 1) (k 2) (k 3)) (seen (expRot r) t (corner cols size spacing tag c))))
    (tag : ℤ) (htag : ∀ c, Valid rows cols tag c → ∃ kp, Spec.run ops tag c = some kp ∧ OnImage res kp) (hin : Valid rows cols tag 0)
    (T : Option (Mat4 ℝ)) :
    estimate cv kind res k g T = .ok (0, some (tf (expRot r) t)) := by
  obtain ⟨g', hg', rel⟩ := run_rel ts rows cols size spacing ops hv
  rw [hg] at hg'
  cases hg'
  have inUse : ∀ c : ℤ, 0 ≤ c → c < 4 → ∃ kp, ((tag, c), kp) ∈ used rows cols res (Spec.run ops) := by
    intro c a b
    have hvc : Valid rows cols tag c := ⟨hin.1, hin.2.1, a, b⟩
    obtain ⟨kp, e1, e2⟩ := htag c hvc
    exact ⟨kp, mem_used.mpr ⟨⟨hvc, e1⟩, e2⟩⟩
  have four : 4 ≤ (used rows cols res (Spec.run ops)).length := by
    have hsub : [(tag, (0 : ℤ)), (tag, 1), (tag, 2), (tag, 3)] ⊆ (used rows cols res (Spec.run ops)).map (fun e => e.1) := by
      intro e he
      simp only [List.mem_cons, List.not_mem_nil, or_false] at he
      have one : ∀ c : ℤ, 0 ≤ c → c < 4 → (tag, c) ∈ (used rows cols res (Spec.run ops)).map (fun e => e.1) := by
        intro c a b
        obtain ⟨kp, hk⟩ := inUse c a b
        exact List.mem_map.mpr ⟨_, hk, rfl⟩
      rcases he with rfl | rfl | rfl | rfl
      · exact one 0 (by norm_num) (by norm_num)
      · exact one 1 (by norm_num) (by norm_num)
      · exact one 2 (by norm_num) (by norm_num)
      · exact one 3 (by norm_num) (by norm_num)
    have := (List.subperm_of_subset (by simp) hsub).length_le
    simpa using this
  have nb : g.nbDetections ≠ 0 := by
    have e1 := rel.nb
    rw [← spec_size] at e1
    have e2 : (used rows cols res (Spec.run ops)).length ≤ Spec.size rows cols (Spec.run ops) := by
      classical exact List.length_filter_le _ _
    omega
  rw [estimate_eq cv kind res k rel.toCore T nb, answer, if_neg (by simpa using four)]
  set M := pinholeK (k 0) (k 1) (k 2) (k 3) with hM
  have himg : (used rows cols res (Spec.run ops)).map (fun e => undistort kind k ![e.2.1, e.2.2]) =
      ((used rows cols res (Spec.run ops)).map (fun e => corner cols size spacing e.1.1 e.1.2)).map
        (fun p => some (shot M (seen (expRot r) t p))) := by
    rw [List.map_map]
    refine List.map_congr_left ?_
    rintro ⟨⟨a, b⟩, kp⟩ he
    obtain ⟨⟨p1, p2⟩, p3⟩ := mem_used.mp he
    exact (hsee a b kp p1 p2 p3).2
  rw [himg]
  have front : ∀ p ∈ (used rows cols res (Spec.run ops)).map (fun e => corner cols size spacing e.1.1 e.1.2),
      0 < seen (expRot r) t p 2 := by
    intro p hp
    obtain ⟨⟨⟨a, b⟩, kp⟩, he, rfl⟩ := List.mem_map.mp hp
    obtain ⟨⟨p1, p2⟩, p3⟩ := mem_used.mp he
    exact (hsee a b kp p1 p2 p3).1
  obtain ⟨r', e1, e2⟩ := hcv M _ r t (by simpa using four) front (by
    intro R' t' hR' hfront hsame
    refine C142_unique M (by rw [hM]; exact h0) (by rw [hM]; exact h1) (expRot r) R' t t' (expRot_isRot r) hR' hoff
      (((tag.toNat % cols : ℕ) : ℝ) * (size * (1 + spacing))) (((tag.toNat / cols : ℕ) : ℝ) * (size * (1 + spacing))) size hs ?_
    have mem : ∀ c : ℤ, 0 ≤ c → c < 4 → corner cols size spacing tag c ∈
        (used rows cols res (Spec.run ops)).map (fun e => corner cols size spacing e.1.1 e.1.2) := by
      intro c a b
      obtain ⟨kp, hk⟩ := inUse c a b
      exact List.mem_map.mpr ⟨_, hk, rfl⟩
    have all : ∀ p ∈ (used rows cols res (Spec.run ops)).map (fun e => corner cols size spacing e.1.1 e.1.2),
        0 < seen (expRot r) t p 2 ∧ 0 < seen R' t' p 2 ∧ shot M (seen R' t' p) = shot M (seen (expRot r) t p) :=
      fun p hp => ⟨front p hp, hfront p hp, hsame p hp⟩
    intro p hp
    simp only [List.mem_cons, List.not_mem_nil, or_false] at hp
    rcases hp with rfl | rfl | rfl | rfl
    · simpa [corner, boardPoint] using all _ (mem 0 (by norm_num) (by norm_num))
    · simpa [corner, boardPoint] using all _ (mem 1 (by norm_num) (by norm_num))
    · simpa [corner, boardPoint] using all _ (mem 2 (by norm_num) (by norm_num))
    · simpa [corner, boardPoint] using all _ (mem 3 (by norm_num) (by norm_num)))
  rw [e1]
  simp only [e2]

theorem pinK (k : Params) (q : Vec3 ℝ) : shot (pinholeK (k 0) (k 1) (k 2) (k 3)) q = ![k 0 * (q 0 / q 2) + k 2, k 1 * (q 1 / q 2) + k 3] := by
  simp [shot, pinholeK]

/-- C142: with a radial-tangential camera without distortion, every corner on the image measured exactly where the
camera shows it and one tag seen whole, the estimate is the pose of the target. -/
theorem C142_radtan (cv : Cv) (hcv : Exact cv) (res : Fin 2 → ℤ) (k : Params) (h0 : k 0 ≠ 0) (h1 : k 1 ≠ 0) (hd : ∀ i, Cam.dist k i = 0)
    (ts : ℤ) (rows cols : ℕ) (size spacing : ℝ) (hs : size ≠ 0) (ops : List (Op ℝ)) (hv : ∀ op ∈ ops, OpValid rows cols op)
    (g : Grid ℝ) (hg : AprilGrid.run (new ts rows cols size spacing) ops = .ok g) (r t : Vec3 ℝ) (hoff : OffPlane (expRot r) t)
    (hsee : ∀ tag c kp, Valid rows cols tag c → Spec.run ops tag c = some kp → OnImage res kp →
      0 < seen (expRot r) t (corner cols size spacing tag c) 2 ∧
      (radtanProject res k (seen (expRot r) t (corner cols size spacing tag c))).zhat = some ![kp.1, kp.2])
    (tag : ℤ) (htag : ∀ c, Valid rows cols tag c → ∃ kp, Spec.run ops tag c = some kp ∧ OnImage res kp) (hin : Valid rows cols tag 0)
    (T : Option (Mat4 ℝ)) :
    estimate cv .radtan res k g T = .ok (0, some (tf (expRot r) t)) := by
  refine C142_general cv hcv .radtan res k h0 h1 ts rows cols size spacing hs ops hv g hg r t hoff ?_ tag htag hin T
  intro tg c kp a b d
  obtain ⟨e1, e2⟩ := hsee tg c kp a b d
  refine ⟨e1, ?_⟩
  obtain ⟨z, f1, f2⟩ := C39_radtan res k _ h0 h1 hd e1.ne'
  rw [e2] at f1
  cases f1
  have := ((C39_undistort k ![kp.1, kp.2] h0 h1).1 _ f2).2.1
  rw [pinK]
  exact this

/-- C142: the same with an equidistant camera, for corners off the optical axis. -/
theorem C142_equi_partial (cv : Cv) (hcv : Exact cv) (res : Fin 2 → ℤ) (k : Params) (h0 : k 0 ≠ 0) (h1 : k 1 ≠ 0) (hd : ∀ i, Cam.dist k i = 0)
    (ts : ℤ) (rows cols : ℕ) (size spacing : ℝ) (hs : size ≠ 0) (ops : List (Op ℝ)) (hv : ∀ op ∈ ops, OpValid rows cols op)
    (g : Grid ℝ) (hg : AprilGrid.run (new ts rows cols size spacing) ops = .ok g) (r t : Vec3 ℝ) (hoff : OffPlane (expRot r) t)
    (hsee : ∀ tag c kp, Valid rows cols tag c → Spec.run ops tag c = some kp → OnImage res kp →
      0 < seen (expRot r) t (corner cols size spacing tag c) 2 ∧
      1 / 10 ^ 8 ≤ Real.sqrt ((seen (expRot r) t (corner cols size spacing tag c) 0 / seen (expRot r) t (corner cols size spacing tag c) 2) ^ 2 +
        (seen (expRot r) t (corner cols size spacing tag c) 1 / seen (expRot r) t (corner cols size spacing tag c) 2) ^ 2) ∧
      (equiProject res k (seen (expRot r) t (corner cols size spacing tag c))).zhat = some ![kp.1, kp.2])
    (tag : ℤ) (htag : ∀ c, Valid rows cols tag c → ∃ kp, Spec.run ops tag c = some kp ∧ OnImage res kp) (hin : Valid rows cols tag 0)
    (T : Option (Mat4 ℝ)) :
    estimate cv .equi res k g T = .ok (0, some (tf (expRot r) t)) := by
  refine C142_general cv hcv .equi res k h0 h1 ts rows cols size spacing hs ops hv g hg r t hoff ?_ tag htag hin T
  intro tg c kp a b d
  obtain ⟨e1, e2, e3⟩ := hsee tg c kp a b d
  refine ⟨e1, ?_⟩
  obtain ⟨z, f1, f2⟩ := C39_equi_partial res k _ h0 h1 hd e1 e2
  rw [e3] at f1
  cases f1
  have := ((C39_undistort k ![kp.1, kp.2] h0 h1).2 _ f2).2.1
  rw [pinK]
  exact this

/-- C142: a grid that holds nothing, and in which no corner was added twice since it was last cleared, gives -1 and
leaves the caller's pose as it was. -/
theorem C142_nothing (cv : Cv) (kind : Kind) (res : Fin 2 → ℤ) (k : Params) (ts : ℤ) (rows cols : ℕ) (size spacing : ℝ) (ops : List (Op ℝ))
    (hv : ∀ op ∈ ops, OpValid rows cols op) (g : Grid ℝ) (hg : AprilGrid.run (new ts rows cols size spacing) ops = .ok g)
    (hno : ∀ tag c, Valid rows cols tag c → Spec.run ops tag c = none) (hov : Spec.overwrites ops = 0) (T : Option (Mat4 ℝ)) :
    estimate cv kind res k g T = .ok (-1, T) := by
  obtain ⟨g', hg', rel⟩ := run_rel ts rows cols size spacing ops hv
  rw [hg] at hg'
  cases hg'
  have hnil : held rows cols (Spec.run ops) = [] := by
    rw [List.eq_nil_iff_forall_not_mem]
    rintro ⟨⟨a, b⟩, kp⟩ he
    obtain ⟨p1, p2⟩ := (mem_held rows cols _ a b kp).mp he
    rw [hno a b p1] at p2
    cases p2
  have nb := rel.nb
  rw [← spec_size, Spec.size, hnil, hov] at nb
  rw [estimate, if_neg (by rw [rel.hinit]; decide), if_pos (by simpa using nb)]

/-- C142 refuted: with one, two or three corners on the image (however many are held) the call throws instead of
returning an error. -/
theorem C142_few_refuted (cv : Cv) (kind : Kind) (res : Fin 2 → ℤ) (k : Params) (ts : ℤ) (rows cols : ℕ) (size spacing : ℝ) (ops : List (Op ℝ))
    (hv : ∀ op ∈ ops, OpValid rows cols op) (g : Grid ℝ) (hg : AprilGrid.run (new ts rows cols size spacing) ops = .ok g)
    (hsome : ∃ tag c, Valid rows cols tag c ∧ (Spec.run ops tag c).isSome) (few : (used rows cols res (Spec.run ops)).length < 4)
    (T : Option (Mat4 ℝ)) :
    estimate cv kind res k g T = .error .exn := by
  obtain ⟨g', hg', rel⟩ := run_rel ts rows cols size spacing ops hv
  rw [hg] at hg'
  cases hg'
  have nb : g.nbDetections ≠ 0 := by
    have e1 := rel.nb
    rw [← spec_size, Spec.size] at e1
    obtain ⟨tag, c, a, b⟩ := hsome
    obtain ⟨kp, b⟩ := Option.isSome_iff_exists.mp b
    have := List.length_pos_of_mem ((mem_held rows cols _ tag c kp).mpr ⟨a, b⟩)
    omega
  rw [estimate_eq cv kind res k rel.toCore T nb, answer, if_pos (by simpa using few)]

/-- C142 refuted: a corner added twice and removed leaves a grid that holds nothing and on which the call throws. -/
theorem C142_phantom_refuted (cv : Cv) (kind : Kind) (res : Fin 2 → ℤ) (k : Params) (ts : ℤ) (rows cols : ℕ) (size spacing : ℝ)
    (tag c : ℤ) (hc : Valid rows cols tag c) (a b : ℝ × ℝ) (T : Option (Mat4 ℝ)) :
    ∃ g, AprilGrid.run (new ts rows cols size spacing) [.add tag c a, .add tag c b, .remove tag c] = .ok g ∧
      (∀ tag' c', Spec.run [.add tag c a, .add tag c b, .remove tag c] tag' c' = none) ∧
      estimate cv kind res k g T = .error .exn := by
  obtain ⟨g, hg, rel⟩ := run_rel ts rows cols size spacing [.add tag c a, .add tag c b, .remove tag c] (by
    intro op h
    simp only [List.mem_cons, List.not_mem_nil, or_false] at h
    rcases h with rfl | rfl | rfl <;> exact hc)
  have hno : ∀ tag' c', Spec.run [.add tag c a, .add tag c b, .remove tag c] tag' c' = none := by
    intro t' c'
    by_cases e : t' = tag ∧ c' = c <;> simp [Spec.run, Spec.step, none_, e]
  refine ⟨g, hg, hno, ?_⟩
  have hnil : held rows cols (Spec.run [.add tag c a, .add tag c b, .remove tag c]) = [] := by
    rw [List.eq_nil_iff_forall_not_mem]
    rintro ⟨⟨x, y⟩, kp⟩ he
    obtain ⟨p1, p2⟩ := (mem_held rows cols _ x y kp).mp he
    rw [hno x y] at p2
    cases p2
  have nb : g.nbDetections ≠ 0 := by
    have e1 := rel.nb
    have : Spec.overwrites [Op.add tag c a, .add tag c b, .remove tag c] = 1 := by
      simp [Spec.overwrites, trackStep, Spec.step, none_]
    omega
  have hu : used rows cols res (Spec.run [.add tag c a, .add tag c b, .remove tag c]) = [] := by
    unfold used; rw [hnil]; rfl
  rw [estimate_eq cv kind res k rel.toCore T nb, hu, answer, if_pos (by simp)]

/-- C142 refuted: when OpenCV finds no pose the call still reports success, with a pose made of numbers never written. -/
theorem C142_unsolved_refuted (kind : Kind) (res : Fin 2 → ℤ) (k : Params) (ts : ℤ) (rows cols : ℕ) (size spacing : ℝ) (ops : List (Op ℝ))
    (hv : ∀ op ∈ ops, OpValid rows cols op) (g : Grid ℝ) (hg : AprilGrid.run (new ts rows cols size spacing) ops = .ok g)
    (four : 4 ≤ (used rows cols res (Spec.run ops)).length) (T : Option (Mat4 ℝ)) :
    estimate ⟨fun _ _ _ => none⟩ kind res k g T = .ok (0, none) := by
  obtain ⟨g', hg', rel⟩ := run_rel ts rows cols size spacing ops hv
  rw [hg] at hg'
  cases hg'
  have nb : g.nbDetections ≠ 0 := by
    have e1 := rel.nb
    rw [← spec_size] at e1
    have e2 : (used rows cols res (Spec.run ops)).length ≤ Spec.size rows cols (Spec.run ops) := by
      classical exact List.length_filter_le _ _
    omega
  rw [estimate_eq _ kind res k rel.toCore T nb, answer, if_neg (by simpa using four)]

theorem equi_center (k : Params) : undistort .equi k ![k 2, k 3] = none := by
  show equiUndistort k ![k 2, k 3] = none
  unfold equiUndistort unpixel
  by_cases h : k 0 = 0 ∨ k 1 = 0
  · simp [h]
  · simp only [h, if_false]
    have : equi4Undistort (dist k) ![(![k 2, k 3] 0 - k 2) / k 0, (![k 2, k 3] 1 - k 3) / k 1] = none := by
      simp only [equi4Undistort]
      rcases equiLoop _ _ _ _ with _ | th
      · rfl
      · simp
    show (equi4Undistort _ _).bind _ = _
    rw [this]; rfl

/-- C142 refuted: with an equidistant camera, one corner on the principal point hands OpenCV a pixel that is not a
number, so that however well it solves the problems it is given properly, any pose may come out. -/
theorem C142_axis_refuted (cv : Cv) (hcv : Exact cv) (res : Fin 2 → ℤ) (k : Params) (ts : ℤ) (rows cols : ℕ) (size spacing : ℝ) (ops : List (Op ℝ))
    (hv : ∀ op ∈ ops, OpValid rows cols op) (g : Grid ℝ) (hg : AprilGrid.run (new ts rows cols size spacing) ops = .ok g)
    (four : 4 ≤ (used rows cols res (Spec.run ops)).length) (tag c : ℤ) (hc : Valid rows cols tag c)
    (hcen : Spec.run ops tag c = some (k 2, k 3)) (hon : OnImage res (k 2, k 3)) (r t : Vec3 ℝ) (T : Option (Mat4 ℝ)) :
    ∃ cv', Exact cv' ∧ estimate cv' .equi res k g T = .ok (0, some (tf (expRot r) t)) := by
  classical
  refine ⟨⟨fun o i M => if none ∈ i then some (r, t) else cv.pnp o i M⟩, ?_, ?_⟩
  · intro M objs r t a b d
    obtain ⟨r', e1, e2⟩ := hcv M objs r t a b d
    refine ⟨r', ?_, e2⟩
    show (if _ then _ else _) = _
    rw [if_neg (by simp)]
    exact e1
  · obtain ⟨g', hg', rel⟩ := run_rel ts rows cols size spacing ops hv
    rw [hg] at hg'
    cases hg'
    have nb : g.nbDetections ≠ 0 := by
      have e1 := rel.nb
      rw [← spec_size] at e1
      have e2 : (used rows cols res (Spec.run ops)).length ≤ Spec.size rows cols (Spec.run ops) :=
        List.length_filter_le _ _
      omega
    rw [estimate_eq _ .equi res k rel.toCore T nb, answer, if_neg (by simpa using four)]
    have hm : none ∈ (used rows cols res (Spec.run ops)).map (fun e => undistort .equi k ![e.2.1, e.2.2]) :=
      List.mem_map.mpr ⟨((tag, c), (k 2, k 3)), mem_used.mpr ⟨⟨hc, hcen⟩, hon⟩, equi_center k⟩
    simp only [if_pos hm]

/-! ## Cases -/

open Classical in
/-- An OpenCV that solves what can be solved. -/
noncomputable def ideal : Cv where
  pnp objs imgs M :=
    if h : ∃ p : Vec3 ℝ × Vec3 ℝ, 4 ≤ objs.length ∧ (∀ o ∈ objs, 0 < seen (expRot p.1) p.2 o 2) ∧
        imgs = objs.map (fun o => some (shot M (seen (expRot p.1) p.2 o))) then some h.choose else none

theorem ideal_exact : Exact ideal := by
  intro M objs r t h4 hf hu
  have h : ∃ p : Vec3 ℝ × Vec3 ℝ, 4 ≤ objs.length ∧ (∀ o ∈ objs, 0 < seen (expRot p.1) p.2 o 2) ∧
        objs.map (fun p => some (shot M (seen (expRot r) t p))) = objs.map (fun o => some (shot M (seen (expRot p.1) p.2 o))) :=
    ⟨(r, t), h4, hf, rfl⟩
  obtain ⟨-, c2, c3⟩ := h.choose_spec
  have same := hu _ _ (expRot_isRot h.choose.1) c2 (by
    intro p hp
    have := List.map_inj_left.mp c3 p hp
    exact (Option.some.inj this).symm)
  refine ⟨h.choose.1, ?_, same.1⟩
  have e : ideal.pnp objs (objs.map fun p => some (shot M (seen (expRot r) t p))) M = some h.choose := dif_pos h
  rw [e]
  exact congrArg some (Prod.ext rfl same.2)

/-- One tag of 1 m, two metres in front of a camera of 100 pixels focal length. -/
def shots : List (Op ℝ) := [.add 0 0 (50, 50), .add 0 1 (100, 50), .add 0 2 (100, 100), .add 0 3 (50, 100)]

theorem shots_ok : ∀ op ∈ shots, OpValid 1 1 op := by
  intro op h
  simp only [shots, List.mem_cons, List.not_mem_nil, or_false] at h
  rcases h with rfl | rfl | rfl | rfl <;> simp [OpValid, Valid]

/-- C142 witness: the hypotheses of `C142_radtan` are met, and the pose comes out. -/
example : ∃ (g : Grid ℝ), AprilGrid.run (new 5 1 1 1 0) shots = .ok g ∧
    estimate ideal .radtan ![200, 200] ![100, 100, 50, 50, 0, 0, 0, 0] g none = .ok (0, some (tf (1 : Mat3 ℝ) ![0, 0, 2])) := by
  obtain ⟨g, hg, -⟩ := run_rel 5 1 1 (1 : ℝ) 0 shots shots_ok
  refine ⟨g, hg, ?_⟩
  have h1 : expRot (0 : Vec3 ℝ) = 1 := by simp [expRot]
  have := C142_radtan ideal ideal_exact ![200, 200] ![100, 100, 50, 50, 0, 0, 0, 0] (by simp) (by simp)
    (by intro i; fin_cases i <;> simp [Cam.dist]) 5 1 1 1 0 (by norm_num) shots shots_ok g hg 0 ![0, 0, 2]
    (by rw [h1]; simp [OffPlane]) ?_ 0 ?_ (by simp [Valid]) none
  · rw [h1] at this; exact this
  · intro tag c kp hv hk _
    rw [h1]
    have ht : tag = 0 := by obtain ⟨a, b, -⟩ := hv; simp at b; omega
    have hc : c = 0 ∨ c = 1 ∨ c = 2 ∨ c = 3 := by obtain ⟨-, -, a, b⟩ := hv; omega
    subst ht
    rcases hc with rfl | rfl | rfl | rfl <;> simp [Spec.run, shots, Spec.step] at hk <;> subst hk <;>
      (refine ⟨?_, ?_⟩ <;> simp [seen, corner, boardPoint, radtanProject, projectPoint, pixel, proj, radtan4Distort, Cam.dist] <;> norm_num)
  · intro c hv
    have hc : c = 0 ∨ c = 1 ∨ c = 2 ∨ c = 3 := by obtain ⟨-, -, a, b⟩ := hv; omega
    rcases hc with rfl | rfl | rfl | rfl <;> simp [Spec.run, shots, Spec.step, OnImage] <;> norm_num

theorem four_of_tag {rows cols : ℕ} {res : Fin 2 → ℤ} {m : CMap ℝ} {tag : ℤ}
    (h : ∀ c : ℤ, 0 ≤ c → c < 4 → ∃ kp, ((tag, c), kp) ∈ used rows cols res m) : 4 ≤ (used rows cols res m).length := by
  have one : ∀ c : ℤ, 0 ≤ c → c < 4 → (tag, c) ∈ (used rows cols res m).map (fun e => e.1) := by
    intro c a b
    obtain ⟨kp, hk⟩ := h c a b
    exact List.mem_map.mpr ⟨_, hk, rfl⟩
  have hsub : [(tag, (0 : ℤ)), (tag, 1), (tag, 2), (tag, 3)] ⊆ (used rows cols res m).map (fun e => e.1) := by
    intro e he
    simp only [List.mem_cons, List.not_mem_nil, or_false] at he
    rcases he with rfl | rfl | rfl | rfl
    · exact one 0 (by norm_num) (by norm_num)
    · exact one 1 (by norm_num) (by norm_num)
    · exact one 2 (by norm_num) (by norm_num)
    · exact one 3 (by norm_num) (by norm_num)
  simpa using (List.subperm_of_subset (by simp) hsub).length_le

theorem shots_used : 4 ≤ (used 1 1 ![200, 200] (Spec.run shots)).length := by
  refine four_of_tag (tag := 0) ?_
  intro c a b
  have hc : c = 0 ∨ c = 1 ∨ c = 2 ∨ c = 3 := by omega
  have hv : Valid 1 1 0 c := ⟨by norm_num, by norm_num, a, b⟩
  rcases hc with rfl | rfl | rfl | rfl
  · exact ⟨(50, 50), mem_used.mpr ⟨⟨hv, by simp [Spec.run, shots, Spec.step]⟩, by simp [OnImage]; norm_num⟩⟩
  · exact ⟨(100, 50), mem_used.mpr ⟨⟨hv, by simp [Spec.run, shots, Spec.step]⟩, by simp [OnImage]; norm_num⟩⟩
  · exact ⟨(100, 100), mem_used.mpr ⟨⟨hv, by simp [Spec.run, shots, Spec.step]⟩, by simp [OnImage]; norm_num⟩⟩
  · exact ⟨(50, 100), mem_used.mpr ⟨⟨hv, by simp [Spec.run, shots, Spec.step]⟩, by simp [OnImage]; norm_num⟩⟩

/-- C142 witness: the hypotheses of `C142_axis_refuted` and `C142_unsolved_refuted`: the first corner of the tag above
is on the principal point. -/
example : ∃ cv' g, Exact cv' ∧ AprilGrid.run (new 5 1 1 1 0) shots = .ok g ∧
    estimate cv' .equi ![200, 200] ![100, 100, 50, 50, 0, 0, 0, 0] g none = .ok (0, some (tf (expRot ![1, 2, 3]) ![7, 8, 9])) := by
  obtain ⟨g, hg, -⟩ := run_rel 5 1 1 (1 : ℝ) 0 shots shots_ok
  obtain ⟨cv', a, b⟩ := C142_axis_refuted ideal ideal_exact ![200, 200] ![100, 100, 50, 50, 0, 0, 0, 0] 5 1 1 1 0 shots shots_ok g hg
    shots_used 0 0 (by simp [Valid]) (by simp [Spec.run, shots, Spec.step]) (by simp [OnImage]; norm_num) ![1, 2, 3] ![7, 8, 9] none
  exact ⟨cv', g, a, hg, b⟩

/-- C142 witness: the hypotheses of `C142_few_refuted`: one corner. -/
example : ∃ g, AprilGrid.run (new 5 1 1 (1 : ℝ) 0) [.add 0 2 (100, 100)] = .ok g ∧
    estimate ideal .radtan ![200, 200] ![100, 100, 50, 50, 0, 0, 0, 0] g none = .error .exn := by
  have ok : ∀ op ∈ [Op.add 0 2 ((100, 100) : ℝ × ℝ)], OpValid 1 1 op := by
    intro op h
    simp only [List.mem_cons, List.not_mem_nil, or_false] at h
    subst h
    simp [OpValid, Valid]
  obtain ⟨g, hg, -⟩ := run_rel 5 1 1 (1 : ℝ) 0 _ ok
  refine ⟨g, hg, C142_few_refuted _ _ _ _ 5 1 1 1 0 _ ok g hg ⟨0, 2, by simp [Valid], by simp [Spec.run, Spec.step]⟩ ?_ none⟩
  refine lt_of_le_of_lt (List.length_filter_le _ _) ?_
  simp [held, allCorners, Spec.run, Spec.step, none_]

end Yac.Pnp
