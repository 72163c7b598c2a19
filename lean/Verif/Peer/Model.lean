import Verif.Socket.Model

/-! # Where the socket sinks send to (src/sink/socket/tcp.cpp, src/sink/socket/udp.cpp)

`Verif.Socket.Model` numbers the endpoints and connections. Here they are addresses, and the host of a sink may get other
addresses in the course of time. -/

namespace Blackhole.Peer

open Socket

/-- The network during one call (src/sink/socket/tcp.cpp:73-134, src/sink/socket/udp.cpp:19-35). Simplification: it does not
change while a call runs. -/
structure Moment (A : Type) where
  /-- The addresses that the host has, or the error of the resolver. -/
  resolve : Except Code (List A)
  /-- A connection is made unless there is an error. -/
  connect : A → Option Code
  /-- Writing to a connection: none if all is sent, otherwise the number of bytes that are, and the error. -/
  write : A → Str → Option (Nat × Code)
  /-- Opening a socket for the protocol of an address. -/
  «open» : A → Option Code
  /-- Sending a datagram to an address. -/
  send : A → Str → Option Code

variable {A : Type}

/-- `do_connect` (src/sink/socket/tcp.cpp:35-56). -/
def doConnect (w : Moment A) (last : Option Code) : List A → Except Code A
  | [] => .error (last.getD notFound)
  | a :: as =>
    match w.connect a with
    | none => .ok a
    | some e => doConnect w (some e) as

/-- `reconnect` (src/sink/socket/tcp.cpp:71-103). -/
def reconnect (w : Moment A) : Except Error A :=
  match w.resolve with
  | .error c => .error (.resolve c)
  | .ok as =>
    match doConnect w none as with
    | .error c => .error (.connect c)
    | .ok a => .ok a

/-- The writing in `emit` (src/sink/socket/tcp.cpp:128-133): the result, the address the sink is connected to afterwards, and what
was sent to which address. -/
def tcpWrite (w : Moment A) (a : A) (m : Str) : Except Error Unit × Option A × List (A × Str) :=
  match w.write a m with
  | none => (.ok (), some a, [(a, m)])
  | some (k, e) => (.error (.write e), none, [(a, m.take k)])

/-- `tcp_t::emit` (src/sink/socket/tcp.cpp:121-134). The constructor (108-111) does nothing with the network. -/
def tcpEmit (w : Moment A) (peer : Option A) (m : Str) : Except Error Unit × Option A × List (A × Str) :=
  match peer with
  | some a => tcpWrite w a m
  | none =>
    match reconnect w with
    | .error e => (.error e, none, [])
    | .ok a => tcpWrite w a m

/-- A history of emits, each in its moment, from a new sink (src/sink/socket/tcp.cpp:121-134): the results, and the address the sink
is connected to in the end. -/
def tcpRun : Option A → List (Moment A × Str) → List (Except Error Unit × List (A × Str)) × Option A
  | peer, [] => ([], peer)
  | peer, (w, m) :: rest =>
    match tcpEmit w peer m with
    | (r, peer, sent) => ((r, sent) :: (tcpRun peer rest).1, (tcpRun peer rest).2)

/-- How the constructor of the UDP sink ends (src/sink/socket/udp.cpp:19-29). -/
inductive Made (A : Type) where
  | sink (endpoint : A)
  /-- `boost::system::system_error` of the resolver. -/
  | resolve (c : Code)
  /-- `boost::system::system_error` of the socket. -/
  | «open» (c : Code)
  | ub (u : UB)
  deriving DecidableEq, Repr

/-- `udp_t::udp_t` (src/sink/socket/udp.cpp:19-29): the first address; dereferencing the end is undefined. -/
def udpMake (w : Moment A) : Made A :=
  match w.resolve with
  | .error c => .resolve c
  | .ok [] => .ub .nullDeref
  | .ok (a :: _) =>
    match w.open a with
    | some c => .open c
    | none => .sink a

/-- `udp_t::emit` (src/sink/socket/udp.cpp:35-37): the error, and what was sent to which address. -/
def udpEmit (w : Moment A) (endpoint : A) (m : Str) : Option Code × List (A × Str) :=
  match w.send endpoint m with
  | none => (none, [(endpoint, m)])
  | some c => (some c, [])

/-- A history of emits (src/sink/socket/udp.cpp:35-37). -/
def udpRun (endpoint : A) (ms : List (Moment A × Str)) : List (Option Code × List (A × Str)) :=
  ms.map fun p => udpEmit p.1 endpoint p.2

end Blackhole.Peer
