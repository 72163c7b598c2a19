import Verif.Socket.Props
import Verif.Lock.Serial

/-!
# The TCP and UDP sinks on several threads

`emit` of the TCP sink holds the sink's mutex (src/sink/socket/tcp.cpp:122). `emit` of the UDP sink holds none
(src/sink/socket/udp.cpp:33-35).
-/

namespace Blackhole.Socket

/-- The TCP sink in the middle of an emit (src/sink/socket/tcp.cpp:121-134). -/
structure Link where
  tcp : Tcp
  tr : List Ev
  /-- Bytes of the current message that reached the peer. -/
  inflight : Str
  /-- How the emit ended, so far. -/
  out : Except Error Unit

/-- A new sink has no connection (src/sink/socket/tcp.cpp:108-111). -/
def Link.init : Link := { tcp := Tcp.init, tr := [], inflight := [], out := .ok () }

/-- What the peer of a connection has received at this moment of a `write` (src/sink/socket/tcp.cpp:129). -/
def Link.wire (l : Link) (c : Nat) : Str := received c l.tr ++ (if l.tcp.socket = some c then l.inflight else [])

/-- src/sink/socket/tcp.cpp:124-126. -/
def connectStep (net : Net) (l : Link) : Link :=
  match l.tcp.socket with
  | some _ => { l with out := .ok () }
  | none =>
    match reconnect net l.tr with
    | (.error e, tr) => { l with tr := tr, out := .error e }
    | (.ok _, tr) => { l with tcp := { socket := some l.tcp.opened, opened := l.tcp.opened + 1 }, tr := tr, out := .ok () }

/-- One byte of `boost::asio::write` (src/sink/socket/tcp.cpp:129), the one with index `i`, if the network takes it. -/
def sendStep (net : Net) (m : Str) (c : Char) (i : Nat) (l : Link) : Link :=
  match l.out with
  | .error _ => l
  | .ok _ =>
    match net.write l.tr m with
    | none => { l with inflight := l.inflight ++ [c] }
    | some (k, _) => if i < k then { l with inflight := l.inflight ++ [c] } else l

/-- The end of `boost::asio::write` and the `catch` (src/sink/socket/tcp.cpp:128-133). -/
def endStep (net : Net) (m : Str) (l : Link) : Link :=
  match l.out, l.tcp.socket with
  | .ok _, some c =>
    match l.tcp.write net c l.tr m with
    | (r, tcp, tr) => { tcp := tcp, tr := tr, inflight := [], out := r }
  | _, _ => l

/-- `emit` (src/sink/socket/tcp.cpp:121-134) as actions under the sink's mutex. -/
def tcpOp (net : Net) (m : Str) : Lock.Op Unit Unit Str Link :=
  { res := (), lock := some (), what := m,
    steps := connectStep net :: (m.zipIdx.map fun x => sendStep net m x.1 x.2) ++ [endStep net m],
    failed := fun l => match l.out with | .ok _ => false | .error _ => true }

/-- Each thread calls `emit` (src/sink/socket/tcp.cpp:121-134) with its messages on the same sink, one after the other, also after one
that threw. -/
def tcpRun (net : Net) (programs : Nat → List Str) (schedule : List Nat) : Lock.State Unit Unit Str Link :=
  (Lock.State.init (fun t => (programs t).map fun m => [(tcpOp net m).alone]) (fun _ => Link.init)).run schedule

/-- Threads with the messages they have still to emit to a UDP sink (src/sink/socket/udp.cpp:33-35), and what was tried. -/
structure Udp where
  todo : Nat → List Str
  tried : List (Str × Option Code)
  /-- The threads that tried (kept for the statements). -/
  who : List Nat

/-- Thread `t` makes its next emit (src/sink/socket/udp.cpp:33-35): one system call, without a mutex. -/
def Udp.step (send : List (Str × Option Code) → Str → Option Code) (s : Udp) (t : Nat) : Udp :=
  match s.todo t with
  | [] => s
  | m :: ms => { todo := Lock.upd s.todo t ms, tried := udpEmit send s.tried m, who := s.who ++ [t] }

/-- All threads emit (src/sink/socket/udp.cpp:33-35) under a schedule. -/
def Udp.run (send : List (Str × Option Code) → Str → Option Code) (programs : Nat → List Str) (schedule : List Nat) : Udp :=
  schedule.foldl (Udp.step send) { todo := programs, tried := [], who := [] }

end Blackhole.Socket
