import Verif.Basic
import Mathlib.Tactic.Common

/-!
# Model of the TCP server and client (yac/lib/util/net.cpp)

The operating system is a parameter: the results of `socket`, `bind`, `connect`, `listen` and `accept`, and the peer of a socket.
Handlers of connections (`conn_thread`) get a pointer to the server and nothing else, net.cpp:107; all that a handler can know about
its connection is what it reads in `server.conns`.
-/

namespace Yac.Net

/-! ### Addresses -/

/-- The peer of a socket: address (IPv4 or IPv6) and the two bytes of the port in network order. -/
structure Peer (A : Type) where
  addr : A
  port : UInt8 × UInt8

/-- `htons` of an `int` on a little endian machine: its two low bytes, high byte first (C library; net.cpp:68, 127). -/
def htons (port : Int) : UInt8 × UInt8 := (UInt8.ofNat ((port / 256) % 256).toNat, UInt8.ofNat (port % 256).toNat)

/-- `ntohs` (C library; net.cpp:22, 27). -/
def ntohs (b : UInt8 × UInt8) : Int := 256 * (b.1.toNat : Int) + b.2.toNat

/-- `ip_port_info` for a `char` array, net.cpp:9-33: `none` when the socket has no peer (the outputs are not written). -/
def ipPortInfo {A : Type} (ntop : A → List Char) (peer : Option (Peer A)) : Option (List Char × Int) :=
  match peer with
  | none => none
  | some p => some (ntop p.addr, ntohs p.port)

/-- `ip_port_info` for a string, net.cpp:35-40: the array is made a string even if nothing was written to it. -/
def ipPortInfoStr {A : Type} (ntop : A → List Char) (peer : Option (Peer A)) : Except Fault (List Char × Int) :=
  match ipPortInfo ntop peer with
  | none => .error .uninit
  | some r => .ok r

/-! ### Configuration -/

/-- A socket: what it is bound or connected to. -/
inductive Sock (A : Type)
  | bound (port : UInt8 × UInt8)
  | conn (peer : Peer A)

/-- `tcp_server_config`, net.cpp:47-80: `fd` is the result of `socket`, `bind` that of `bind`.  The new `sockfd`, what is bound, and
the return value (options of the socket that cannot be set are only reported). -/
def serverConfig (A : Type) (fd : Int) (bind : Int) (port : Int) : Int × Option (Sock A) × Int :=
  if fd = -1 then (fd, none, -1)
  else if bind ≠ 0 then (fd, none, -1)
  else (fd, some (.bound (htons port)), 0)

/-- `tcp_client_config`, net.cpp:113-134. -/
def clientConfig {A : Type} (pton : List Char → A) (fd : Int) (connect : Int) (ip : List Char) (port : Int) :
    Int × Option (Sock A) × Int :=
  if fd = -1 then (fd, none, -1)
  else if connect ≠ 0 then (fd, none, -1)
  else (fd, some (.conn ⟨pton ip, htons port⟩), 0)

/-- The peer of a socket. -/
def Sock.peer {A : Type} : Sock A → Option (Peer A)
  | .bound _ => none
  | .conn p => some p

/-! ### The client loop -/

/-- `tcp_client_loop`, net.cpp:136-151, up to a number of iterations: the return value if it has returned, and how often the
callback was called; `cb i` is what the callback returns the `i`-th time. -/
def clientLoop (cb : Option (Nat → Int)) : Nat → Option Int × Nat
  | 0 => (none, 0)
  | n + 1 =>
    match clientLoop cb n with
    | (some r, calls) => (some r, calls)
    | (none, calls) =>
      match cb with
      | none => (none, calls)
      | some f => if f calls = -1 then (some (-1), calls + 1) else (none, calls + 1)

/-! ### The server loop -/

/-- A handler thread: not yet looked at `server.conns`, or what it saw. -/
inductive Handler
  | ready
  | saw (conns : List Int)
  deriving DecidableEq

/-- The loop waits in `accept`, is about to start the handler of a connection, or has returned. -/
inductive Main
  | accepting
  | spawning
  | returned
  deriving DecidableEq

/-- The server: `server.conns`, the loop, the handlers in the order of their start, and the results that `accept` will have. -/
structure Server where
  conns : List Int
  main : Main
  handlers : List Handler
  coming : List Int
  deriving DecidableEq

/-- The start of `tcp_server_loop` after `listen`, net.cpp:82-92. -/
def Server.init (coming : List Int) : Server := ⟨[], .accepting, [], coming⟩

/-- A step of the loop, net.cpp:93-112: accept and store, or start the handler (`threads` is never read).  Without a connection
it waits. -/
def mainStep (s : Server) : Server :=
  match s.main, s.coming with
  | .accepting, [] => s
  | .accepting, fd :: rest =>
    if fd < 0 then { s with main := .returned, coming := rest }
    else { s with conns := s.conns ++ [fd], main := .spawning, coming := rest }
  | .spawning, _ => { s with main := .accepting, handlers := s.handlers ++ [.ready] }
  | .returned, _ => s

/-- Handler `k` looks at `server.conns` (the first time). -/
def look (s : Server) (k : Nat) : Server :=
  match s.handlers[k]? with
  | some .ready => { s with handlers := s.handlers.set k (.saw s.conns) }
  | _ => s

/-- A schedule: `none` is a step of the loop, `some k` one of handler `k`. -/
def step (s : Server) : Option Nat → Server
  | none => mainStep s
  | some k => look s k

/-- The server up to the end of a schedule. -/
def run (sched : List (Option Nat)) (s : Server) : Server := sched.foldl step s

end Yac.Net
