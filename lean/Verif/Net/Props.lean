import Verif.Net.Model
import Mathlib.Tactic.Linarith

/-! # C138: TCP server and client -/

namespace Yac.Net

/-! ### Specification -/

/-- The loop is about to add to `server.conns`, which a handler is about to read: a data race, undefined in C++. -/
def Race (s : Server) : Prop :=
  s.main = .accepting ∧ (∃ fd rest, s.coming = fd :: rest ∧ 0 ≤ fd) ∧ ∃ k : Nat, s.handlers[k]? = some Handler.ready

/-- The connection that a handler serves, when it goes for `choose` of what it saw. -/
def serves (choose : List Int → Int) : Handler → Option Int
  | .ready => none
  | .saw c => some (choose c)

/-- Every handler looks before the next connection is accepted. -/
def patient : Nat → List (Option Nat)
  | 0 => []
  | n + 1 => patient n ++ [none, none, some n]

/-! ### Addresses and configuration -/

/-- **C138, ports.**  A port of 0 to 65535 survives the conversion to network order and back; any other number becomes its
remainder. -/
theorem C138_port (p : Int) : ntohs (htons p) = p % 65536 := by
  unfold ntohs htons
  simp only [UInt8.toNat_ofNat']
  have h1 : 0 ≤ p / 256 % 256 := Int.emod_nonneg _ (by norm_num)
  have h2 : p / 256 % 256 < 256 := Int.emod_lt_of_pos _ (by norm_num)
  have h3 : 0 ≤ p % 256 := Int.emod_nonneg _ (by norm_num)
  have h4 : p % 256 < 256 := Int.emod_lt_of_pos _ (by norm_num)
  have e1 : ((p / 256 % 256).toNat % 2 ^ 8 : Nat) = (p / 256 % 256).toNat := Nat.mod_eq_of_lt (by omega)
  have e2 : ((p % 256).toNat % 2 ^ 8 : Nat) = (p % 256).toNat := Nat.mod_eq_of_lt (by omega)
  rw [e1, e2]
  omega

/-- **C138, the peer of a client.**  A client that could connect to an address that is written as the library writes it has that
address and port as its peer. -/
theorem C138_peer_partial {A : Type} (ntop : A → List Char) (pton : List Char → A) (a : A) (hp : pton (ntop a) = a)
    (fd port : Int) (hfd : fd ≠ -1) :
    ∃ s, clientConfig pton fd 0 (ntop a) port = (fd, some s, 0) ∧
      ipPortInfoStr ntop s.peer = .ok (ntop a, port % 65536) := by
  refine ⟨.conn ⟨pton (ntop a), htons port⟩, ?_, ?_⟩
  · unfold clientConfig
    rw [if_neg hfd, if_neg (by simp)]
  · unfold ipPortInfoStr ipPortInfo Sock.peer
    simp only [hp, C138_port]

/-- **C138, refuted.**  Asking for the peer of a socket that has none (as the server's own) reads an array that was never
written. -/
theorem C138_peer_refuted {A : Type} (ntop : A → List Char) (fd port : Int) (hfd : fd ≠ -1) :
    ∃ s, serverConfig A fd 0 port = (fd, some s, 0) ∧ ipPortInfoStr ntop s.peer = .error .uninit := by
  refine ⟨.bound (htons port), ?_, rfl⟩
  unfold serverConfig
  rw [if_neg hfd, if_neg (by simp)]

/-- **C138, configuration.**  Server and client report success exactly when the socket was created and bound or connected, to the
port that was asked for. -/
theorem C138_config {A : Type} (pton : List Char → A) (fd r port : Int) (ip : List Char) :
    ((serverConfig A fd r port).2.2 = 0 ↔ fd ≠ -1 ∧ r = 0) ∧ ((clientConfig pton fd r ip port).2.2 = 0 ↔ fd ≠ -1 ∧ r = 0) ∧
    ((serverConfig A fd r port).2.2 = 0 → (serverConfig A fd r port).2.1 = some (.bound (htons port))) ∧
    ((serverConfig A fd r port).2.2 = -1 ↔ ¬ (fd ≠ -1 ∧ r = 0)) ∧ ((clientConfig pton fd r ip port).2.2 = -1 ↔ ¬ (fd ≠ -1 ∧ r = 0)) := by
  unfold serverConfig clientConfig
  by_cases h : fd = -1
  · simp [h]
  · by_cases hr : r = 0
    · simp [h, hr]
    · simp [h, hr]

/-! ### The client loop -/

theorem client_running (f : Nat → Int) (n : Nat) (h : ∀ i < n, f i ≠ -1) : clientLoop (some f) n = (none, n) := by
  induction n with
  | zero => rfl
  | succ n ih =>
    unfold clientLoop
    rw [ih (fun i hi => h i (by omega))]
    simp only
    rw [if_neg (h n (by omega))]

/-- **C138, the client.**  The loop returns -1 after the first call of the callback that returns -1 and goes on calling it as long
as none does. -/
theorem C138_client (f : Nat → Int) :
    (∀ n, (∀ i < n, f i ≠ -1) → clientLoop (some f) n = (none, n)) ∧
    ∀ n, (∀ i < n, f i ≠ -1) → f n = -1 → ∀ m, n < m → clientLoop (some f) m = (some (-1), n + 1) := by
  refine ⟨fun n => client_running f n, ?_⟩
  intro n h hn m hm
  induction m with
  | zero => omega
  | succ m ih =>
    unfold clientLoop
    by_cases hnm : n < m
    · rw [ih hnm]
    · obtain rfl : n = m := by omega
      rw [client_running f n h]
      simp only
      rw [if_pos hn]

/-- **C138, no callback.**  Without a callback the loop never returns. -/
theorem C138_client_idle (n : Nat) : clientLoop none n = (none, 0) := by
  induction n with
  | zero => rfl
  | succ n ih =>
    unfold clientLoop
    rw [ih]

/-! ### The server loop -/

/-- The invariant of the server. -/
structure Inv (all : List Int) (s : Server) : Prop where
  good : ∀ c ∈ s.conns, 0 ≤ c
  split : (s.main ≠ .returned ∧ s.conns ++ s.coming = all) ∨ (s.main = .returned ∧ ∃ c, c < 0 ∧ s.conns ++ c :: s.coming = all)
  count : s.handlers.length + (if s.main = .spawning then 1 else 0) = s.conns.length
  seen : ∀ k c, s.handlers[k]? = some (.saw c) → c <+: s.conns ∧ k < c.length

theorem Inv.step {all : List Int} {s : Server} (h : Inv all s) (o : Option Nat) : Inv all (step s o) := by
  rcases s with ⟨conns, main, handlers, coming⟩
  obtain ⟨hg, hs, hc, hw⟩ := h
  simp only at hg hs hc hw
  cases o with
  | none =>
    show Inv all (mainStep _)
    unfold mainStep
    cases main with
    | accepting =>
      simp only [ne_eq, reduceCtorEq, not_false_eq_true, true_and, false_and, or_false, if_false, Nat.add_zero] at hs hc
      cases coming with
      | nil => exact ⟨hg, Or.inl ⟨by simp, hs⟩, by simpa using hc, hw⟩
      | cons fd rest =>
        simp only
        split_ifs with hfd
        · exact ⟨hg, Or.inr ⟨rfl, fd, hfd, hs⟩, by simpa using hc, hw⟩
        · refine ⟨?_, Or.inl ⟨by simp, by simpa using hs⟩, by simpa using hc, ?_⟩
          · intro c hcm
            rcases List.mem_append.mp hcm with hcm | hcm
            · exact hg c hcm
            · rw [List.mem_singleton.mp hcm]; omega
          · intro k c hk
            obtain ⟨h1, h2⟩ := hw k c hk
            exact ⟨h1.trans (List.prefix_append _ _), h2⟩
    | spawning =>
      simp only [ne_eq, reduceCtorEq, not_false_eq_true, true_and, false_and, or_false, if_true] at hs hc
      refine ⟨hg, Or.inl ⟨by simp, hs⟩, by simpa using hc, ?_⟩
      intro k c hk
      simp only [List.getElem?_append] at hk
      split_ifs at hk with h1
      · exact hw k c hk
      · rw [List.getElem?_singleton] at hk
        split_ifs at hk
        cases hk
    | returned => exact ⟨hg, hs, hc, hw⟩
  | some k =>
    show Inv all (look _ k)
    unfold look
    simp only
    cases hk : handlers[k]? with
    | none => exact ⟨hg, hs, hc, hw⟩
    | some u =>
      cases u with
      | saw c => exact ⟨hg, hs, hc, hw⟩
      | ready =>
        have hlt : k < handlers.length := (List.getElem?_eq_some_iff.mp hk).1
        refine ⟨hg, hs, by simpa using hc, ?_⟩
        intro j c hj
        simp only [List.getElem?_set] at hj
        split_ifs at hj with h1
        · subst h1
          cases hj
          refine ⟨List.prefix_refl _, ?_⟩
          have : handlers.length ≤ conns.length := by rw [← hc]; omega
          omega
        · exact hw j c hj

theorem inv_run (all : List Int) (sched : List (Option Nat)) : Inv all (run sched (Server.init all)) := by
  have h0 : Inv all (Server.init all) := ⟨by simp [Server.init], Or.inl ⟨by simp [Server.init], by simp [Server.init]⟩,
    by simp [Server.init], by simp [Server.init]⟩
  generalize Server.init all = s at h0
  induction sched generalizing s with
  | nil => exact h0
  | cons o l ih => exact ih _ (h0.step o)

/-- **C138, connections.**  Under every schedule `server.conns` are the connections accepted so far, in order; there is one handler
for each of them (but for the one whose handler is about to be started); the loop returns at the first failure of `accept` and
never before; and what a handler sees begins with the connections up to the one that it was started for. -/
theorem C138_server (all : List Int) (sched : List (Option Nat)) :
    let s := run sched (Server.init all)
    (∃ n, s.conns = all.take n ∧ (∀ c ∈ s.conns, 0 ≤ c) ∧
      (s.handlers.length = n ∨ (s.main = .spawning ∧ s.handlers.length + 1 = n)) ∧
      (s.main = .returned → ∃ c, all[n]? = some c ∧ c < 0)) ∧
    ∀ k c, s.handlers[k]? = some (.saw c) → c <+: s.conns ∧ all[k]? = c[k]? ∧ k < c.length := by
  intro s
  have h := inv_run all sched
  have hpre : s.conns <+: all := by
    rcases h.split with ⟨-, h1⟩ | ⟨-, c, -, h1⟩
    · exact ⟨_, h1⟩
    · exact ⟨_, h1⟩
  refine ⟨⟨s.conns.length, List.prefix_iff_eq_take.mp hpre, h.good, ?_, ?_⟩, ?_⟩
  · have := h.count
    by_cases hm : s.main = .spawning
    · rw [if_pos hm] at this; exact Or.inr ⟨hm, this⟩
    · rw [if_neg hm] at this; exact Or.inl this
  · intro hr
    rcases h.split with ⟨h1, -⟩ | ⟨-, c, hc, h1⟩
    · exact absurd hr h1
    · refine ⟨c, ?_, hc⟩
      rw [← h1, List.getElem?_append_right (le_refl _)]
      simp [s]
  · intro k c hk
    obtain ⟨h1, h2⟩ := h.seen k c hk
    refine ⟨h1, ?_, h2⟩
    have := h1.trans hpre
    obtain ⟨t, rfl⟩ := this
    rw [List.getElem?_append_left h2]

theorem patient_state (all : List Int) (hall : ∀ c ∈ all, 0 ≤ c) : ∀ n, n ≤ all.length →
    run (patient n) (Server.init all) =
      ⟨all.take n, .accepting, (List.range n).map (fun i => .saw (all.take (i + 1))), all.drop n⟩ := by
  intro n
  induction n with
  | zero => intro _; rfl
  | succ n ih =>
    intro hn
    have hlt : n < all.length := by omega
    unfold patient
    unfold run at ih ⊢
    rw [List.foldl_append, ih (by omega)]
    simp only [List.foldl_cons, List.foldl_nil, step]
    rw [List.drop_eq_getElem_cons hlt]
    have hnn : ¬ all[n] < 0 := not_lt.mpr (hall _ (List.getElem_mem hlt))
    have e1 : mainStep ⟨all.take n, .accepting, (List.range n).map (fun i => .saw (all.take (i + 1))), all[n] :: all.drop (n + 1)⟩ =
        ⟨all.take n ++ [all[n]], .spawning, (List.range n).map (fun i => .saw (all.take (i + 1))), all.drop (n + 1)⟩ := by
      unfold mainStep
      simp only [if_neg hnn]
    rw [e1, List.take_append_getElem hlt]
    show look ⟨all.take (n + 1), .accepting, (List.range n).map (fun i => Handler.saw (all.take (i + 1))) ++ [.ready], all.drop (n + 1)⟩ n = _
    unfold look
    have : ((List.range n).map (fun i => Handler.saw (all.take (i + 1))) ++ [.ready])[n]? = some .ready := by
      rw [List.getElem?_append_right (by simp)]
      simp
    simp only [this]
    congr 1
    rw [List.set_append_right _ _ (by simp)]
    simp [List.range_succ]

/-- **C138, a connection for each handler (partial: only when every handler looks before the next connection).**  Then the last
of `server.conns` is for each handler the connection that it was started for. -/
theorem C138_serves_partial (all : List Int) (hall : ∀ c ∈ all, 0 ≤ c) :
    (run (patient all.length) (Server.init all)).handlers.map (serves (fun c => c.getLast?.getD 0)) = all.map some := by
  rw [patient_state all hall all.length (le_refl _)]
  simp only [List.map_map]
  apply List.ext_getElem
  · simp
  · intro i h1 h2
    have hi : i < all.length := by simpa using h2
    simp only [List.getElem_map, List.getElem_range, Function.comp_apply, serves, Option.some.injEq]
    rw [← List.take_append_getElem hi, List.getLast?_append]
    rfl

/-- **C138, refuted.**  Whatever a handler makes of what it sees in `server.conns`: for any two connections there is a schedule
after which both handlers serve the same one, so that the other is never served. -/
theorem C138_serves_refuted (choose : List Int → Int) (a b : Int) (ha : 0 ≤ a) (hb : 0 ≤ b) (hab : a ≠ b) :
    ∃ sched, let s := run sched (Server.init [a, b])
      s.conns = [a, b] ∧ s.handlers.length = 2 ∧ (∀ h ∈ s.handlers, h ≠ .ready) ∧
      ∃ c ∈ s.conns, ∀ h ∈ s.handlers, serves choose h ≠ some c := by
  refine ⟨[none, none, none, none, some 0, some 1], ?_⟩
  have e : run [none, none, none, none, some 0, some 1] (Server.init [a, b]) = ⟨[a, b], .accepting, [.saw [a, b], .saw [a, b]], []⟩ := by
    unfold run Server.init
    simp only [List.foldl_cons, List.foldl_nil, step, mainStep, if_neg (not_lt.mpr ha), if_neg (not_lt.mpr hb)]
    rfl
  rw [e]
  refine ⟨rfl, rfl, by simp, ?_⟩
  by_cases h : choose [a, b] = a
  · refine ⟨b, by simp, ?_⟩
    intro u hu
    have : u = .saw [a, b] := by simpa using hu
    subst this
    show some _ ≠ some b
    rw [h]
    intro he
    exact hab (Option.some.inj he)
  · refine ⟨a, by simp, ?_⟩
    intro u hu
    have : u = .saw [a, b] := by simpa using hu
    subst this
    show some _ ≠ some a
    intro he
    exact h (Option.some.inj he)

/-- **C138, refuted.**  A handler can be about to read `server.conns` when the loop is about to add to it, for any two
connections. -/
theorem C138_race_refuted (a b : Int) (ha : 0 ≤ a) (hb : 0 ≤ b) : Race (run [none, none] (Server.init [a, b])) := by
  have e : run [none, none] (Server.init [a, b]) = ⟨[a], .accepting, [.ready], [b]⟩ := by
    unfold run Server.init
    simp only [List.foldl_cons, List.foldl_nil, step, mainStep, if_neg (not_lt.mpr ha)]
    rfl
  rw [e]
  exact ⟨rfl, ⟨b, [], rfl, hb⟩, 0, rfl⟩

example : run [none, none, none, some 0, none, none] (Server.init [5, 7, -1, 9]) = ⟨[5, 7], .returned, [.saw [5, 7], .ready], [9]⟩ := by
  decide

example : ntohs (htons 8080) = 8080 ∧ ntohs (htons 70000) = 4464 := by decide

example : clientLoop (some (fun i => if i = 2 then -1 else 0)) 10 = (some (-1), 3) := by decide

end Yac.Net
