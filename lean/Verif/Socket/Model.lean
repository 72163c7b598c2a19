import Verif.Config.Model

/-!
# The TCP and UDP sinks (src/sink/socket/tcp.cpp, src/sink/socket/udp.cpp)

The network is an oracle that may answer by everything that happened before. `emit` of the TCP sink holds the sink's
mutex throughout (src/sink/socket/tcp.cpp:122), so that emits are modelled one at a time.
-/

namespace Blackhole.Socket

/-- An error code (src/sink/socket/tcp.cpp:85, 92). -/
abbrev Code := Int

/-- What happens on the network, in order (src/sink/socket/tcp.cpp:73-134). Connections are numbered from 0 in the
order they are opened. -/
inductive Ev where
  /-- The host and port were resolved. -/
  | resolve (ok : Bool)
  /-- A connection attempt to the `i`-th endpoint. -/
  | attempt (i : Nat) (ok : Bool)
  /-- Bytes reached the peer of connection `c`. -/
  | sent (c : Nat) (bytes : Str)
  /-- Connection `c` was closed. -/
  | closed (c : Nat)
  deriving DecidableEq, Repr

/-- What `emit` throws (src/sink/socket/tcp.cpp:84-94, 130-133). -/
inductive Error where
  /-- "failed to resolve" (src/sink/socket/tcp.cpp:83-86). -/
  | resolve (c : Code)
  /-- "failed to connect" (src/sink/socket/tcp.cpp:88-93). -/
  | connect (c : Code)
  /-- The error of the write, rethrown (src/sink/socket/tcp.cpp:130-133). -/
  | write (c : Code)
  deriving DecidableEq, Repr

/-- What the network answers (src/sink/socket/tcp.cpp:73-134). -/
structure Net where
  /-- Resolving: an error, or the number of endpoints. -/
  resolve : List Ev → Except Code Nat
  /-- Connecting to the `i`-th endpoint: none if it worked. -/
  connect : List Ev → Nat → Option Code
  /-- `boost::asio::write` of a message: none if all of it was sent, otherwise how many bytes were sent before the
  error. -/
  write : List Ev → Str → Option (Nat × Code)

/-- `boost::asio::error::not_found` (src/sink/socket/tcp.cpp:51-53). -/
def notFound : Code := 1

/-- `do_connect` (src/sink/socket/tcp.cpp:35-56) from endpoint `i` with `n` more endpoints; `last` is the error so
far. -/
def doConnect (net : Net) (tr : List Ev) (i : Nat) (last : Option Code) : Nat → Except Code Unit × List Ev
  | 0 => (.error (last.getD notFound), tr)
  | n + 1 =>
    match net.connect tr i with
    | none => (.ok (), tr ++ [.attempt i true])
    | some e => doConnect net (tr ++ [.attempt i false]) (i + 1) (some e) n

/-- `reconnect` and `connect` (src/sink/socket/tcp.cpp:71-103). -/
def reconnect (net : Net) (tr : List Ev) : Except Error Unit × List Ev :=
  match net.resolve tr with
  | .error c => (.error (.resolve c), tr ++ [.resolve false])
  | .ok n =>
    match doConnect net (tr ++ [.resolve true]) 0 none n with
    | (.error c, tr) => (.error (.connect c), tr)
    | (.ok _, tr) => (.ok (), tr)

/-- The sink (src/sink/socket/tcp.hpp:15-22): its socket and, to name connections, how many it has opened. -/
structure Tcp where
  socket : Option Nat
  opened : Nat
  deriving DecidableEq, Repr

/-- src/sink/socket/tcp.cpp:108-111. -/
def Tcp.init : Tcp := { socket := none, opened := 0 }

/-- The `try` block of `emit` (src/sink/socket/tcp.cpp:128-133). -/
def Tcp.write (net : Net) (s : Tcp) (c : Nat) (tr : List Ev) (m : Str) : Except Error Unit × Tcp × List Ev :=
  match net.write tr m with
  | none => (.ok (), s, tr ++ [.sent c m])
  | some (k, e) => (.error (.write e), { s with socket := none }, tr ++ [.sent c (m.take k), .closed c])

/-- `emit` (src/sink/socket/tcp.cpp:121-134). -/
def Tcp.emit (net : Net) (s : Tcp) (tr : List Ev) (m : Str) : Except Error Unit × Tcp × List Ev :=
  match s.socket with
  | some c => s.write net c tr m
  | none =>
    match reconnect net tr with
    | (.error e, tr) => (.error e, s, tr)
    | (.ok _, tr) => Tcp.write net { socket := some s.opened, opened := s.opened + 1 } s.opened tr m

/-- A history of emits (src/sink/socket/tcp.cpp:121-134); the results in order. -/
def Tcp.run (net : Net) : Tcp → List Ev → List Str → List (Except Error Unit) × Tcp × List Ev
  | s, tr, [] => ([], s, tr)
  | s, tr, m :: ms =>
    match s.emit net tr m with
    | (r, s, tr) =>
      match Tcp.run net s tr ms with
      | (rs, s, tr) => (r :: rs, s, tr)

/-- `udp_t::emit` (src/sink/socket/udp.cpp:33-35), one `send_to` of the whole text. `send` is what the network answers, by
everything that was tried before: none if the datagram left, otherwise the error that `send_to` throws. There are no
parts of datagrams: one that is too long is an error. -/
def udpEmit (send : List (Str × Option Code) → Str → Option Code) (tried : List (Str × Option Code)) (m : Str) :
    List (Str × Option Code) := tried ++ [(m, send tried m)]

/-- What the factories throw (src/sink/socket/tcp.cpp:147-158, src/sink/socket/udp.cpp:48-53). -/
inductive ConfigError where
  | mismatch (e : Config.Mismatch)
  | hostRequired
  | portRequired
  deriving DecidableEq, Repr

/-- The factories (src/sink/socket/tcp.cpp:147-158, src/sink/socket/udp.cpp:47-58): host and port of the sink. -/
def fromConfig (n : Config.Node) : Except ConfigError (Str × Nat) :=
  match (n.key (ch! "host")).toString with
  | .error e => .error (.mismatch e)
  | .ok none => .error .hostRequired
  | .ok (some host) =>
    match (n.key (ch! "port")).toUint64 with
    | .error e => .error (.mismatch e)
    | .ok none => .error .portRequired
    | .ok (some port) => .ok (host, (port % 2 ^ 16).toNat)

end Blackhole.Socket
