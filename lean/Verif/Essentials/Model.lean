import Verif.Registry.Model
import Verif.Async.Model
import Verif.Console.Model
import Verif.File.Factory
import Verif.Json.Model
import Verif.Socket.Model
import Verif.StringFmt.Model
import Verif.Syslog.Model
import Verif.Tskv.Model

/-!
# The registry with everything the library provides (src/essentials.cpp)

Exceptions of factories other than wrong types and unknown names are not distinguished here (`Error.factory 0`); their
areas have them.
-/

namespace Blackhole.Essentials

open Config (Node Opt)
open Registry (Error Kind Factory Registry)

/-- A sink that the library can make (src/essentials.cpp:28-34). -/
inductive Sink where
  | asynchronous (queue : Async.Sink) (wrapped : Sink)
  | console (s : Console.Sink)
  | file (path : Str) (s : File.Sink)
  | null
  | tcp (host : Str) (port : Nat)
  | udp (host : Str) (port : Nat)
  | syslog (priorities : List Int)

/-- A formatter that the library can make (src/essentials.cpp:24-26). -/
inductive Formatter where
  | json (d : Json.Data)
  | string (f : StringFmt.Formatter)
  | tskv (d : Tskv.Data)

/-- The only filter that the library can make (src/filter/severity.cpp:33-45). -/
def severityFilter (n : Node) : Except Error Console.Filter :=
  match Console.severityFromConfig n with
  | .ok f => .ok f
  | .error (.mismatch e) => .error (.mismatch e)
  | .error .thresholdRequired => .error (.factory 0)

/-- The filters (src/essentials.cpp:22); the rest of the registry does not matter to the console sink. -/
def filters : Registry Unit Console.Filter Unit Unit := ⟨[], [(ch! "severity", severityFilter)], [], []⟩

/-- `factory<console_t>::from` (src/sink/console.cpp:174-200), registered in src/essentials.cpp:29. -/
def consoleSink (n : Node) : Except Error Sink := (Console.fromConfig filters n).map .console

/-- `factory<file_t>::from` (src/sink/file.cpp:215-247), registered in src/essentials.cpp:30. -/
def fileSink (n : Node) : Except Error Sink :=
  match File.fromConfig n with
  | .ok (path, s) => .ok (.file path s)
  | .error (.mismatch e) => .error (.mismatch e)
  | .error _ => .error (.factory 0)

/-- src/sink/null.cpp:22-24. -/
def nullSink (_ : Node) : Except Error Sink := .ok .null

/-- The factories of the TCP and the UDP sink (src/sink/socket/tcp.cpp:147-152, src/sink/socket/udp.cpp:48-53),
registered in src/essentials.cpp:32-33. -/
def socketSink (make : Str → Nat → Sink) (n : Node) : Except Error Sink :=
  match Socket.fromConfig n with
  | .ok (host, port) => .ok (make host port)
  | .error (.mismatch e) => .error (.mismatch e)
  | .error _ => .error (.factory 0)

/-- `factory<syslog_t>::from` (src/sink/syslog.cpp:68-90), registered in src/essentials.cpp:34. -/
def syslogSink (n : Node) : Except Error Sink :=
  match Syslog.fromConfig n with
  | .ok ps => .ok (.syslog ps)
  | .error e => .error (.mismatch e)

theorem member_size {key : Str} {ms : List (Str × Config.Json)} {v : Config.Json} (h : Config.member key ms = some v) :
    sizeOf v < sizeOf ms := by
  induction ms with
  | nil => cases h
  | cons m ms ih =>
    obtain ⟨k, x⟩ := m
    simp only [Config.member] at h
    split at h
    · cases h; simp; omega
    · have := ih h; simp; omega

theorem key_size {n m : Node} {k : Str} (h : n.key k = some m) : sizeOf m.value < sizeOf n.value := by
  unfold Node.key at h
  split at h
  · rename_i ms hv
    split at h
    · rename_i v hm
      cases h
      rw [hv]
      have := member_size hm
      simp; omega
    · cases h
  · cases h

/-- Calling the sink factory registered for a type (src/registry.cpp:108-112, 132-135). The asynchronous one
(src/sink/asynchronous.cpp:62-81) asks the registry for the type of the sink that it wraps; that sink is made from a
part of its own configuration, so this ends. -/
def sink (type : Str) (n : Node) : Except Error Sink :=
  if type = ch! "asynchronous" then
    match ((n.key (ch! "sink")).key (ch! "type")).toString with
    | .error e => .error (.mismatch e)
    | .ok none => .error (.factory 0)
    | .ok (some wrapped) =>
      if wrapped ∈ [ch! "asynchronous", ch! "console", ch! "file", ch! "null", ch! "tcp", ch! "udp", ch! "syslog"] then
        match (n.key (ch! "factor")).toUint64 with
        | .error e => .error (.mismatch e)
        | .ok none => .error (.ub .nullDeref)
        | .ok (some factor) =>
          match (n.key (ch! "overflow")).toString with
          | .error e => .error (.mismatch e)
          | .ok none => .error (.ub .nullDeref)
          | .ok (some name) =>
            match Async.create name with
            | .error _ => .error (.factory 0)
            | .ok policy =>
              match h : n.key (ch! "sink") with
              | none => .error (.ub .nullDeref)
              | some m =>
                match sink wrapped m with
                | .error e => .error e
                | .ok s =>
                  match Async.Sink.make' factor.toNat policy with
                  | .error _ => .error (.factory 0)
                  | .ok q => .ok (.asynchronous q s)
      else .error (.notRegistered .sink wrapped)
  else if type = ch! "console" then consoleSink n
  else if type = ch! "file" then fileSink n
  else if type = ch! "null" then nullSink n
  else if type = ch! "tcp" then socketSink .tcp n
  else if type = ch! "udp" then socketSink .udp n
  else if type = ch! "syslog" then syslogSink n
  else .error (.notRegistered .sink type)
termination_by sizeOf n.value
decreasing_by exact key_size h

/-- `factory<json_t>::from` (src/formatter/json.cpp:508-560), registered in src/essentials.cpp:24. -/
def jsonFormatter (n : Node) : Except Error Formatter :=
  match Json.fromConfig n with
  | .ok d => .ok (.json d)
  | .error (.mismatch e) => .error (.mismatch e)
  | .error _ => .error (.factory 0)

/-- `factory<string_t>::from` (src/formatter/string.cpp:379-402), registered in src/essentials.cpp:25. -/
def stringFormatter (env : Rec.Env) (castDouble : Str → Option Nat) (n : Node) : Except Error Formatter :=
  match StringFmt.Formatter.fromConfig env castDouble n with
  | .ok f => .ok (.string f)
  | .error (.mismatch e) => .error (.mismatch e)
  | .error (.pattern _) => .error (.factory 0)
  | .error (.ub u) => .error (.ub u)

/-- `factory<tskv_t>::from` (src/formatter/tskv.cpp:333-376), registered in src/essentials.cpp:26. -/
def tskvFormatter (n : Node) : Except Error Formatter :=
  match Tskv.fromConfig n with
  | .ok d => .ok (.tskv d)
  | .error e => .error (.mismatch e)

/-- `registry::configured()` (src/registry.cpp:152-157, src/essentials.cpp:21-39), in the order of registration.
There is no handler of a user. -/
def configured (env : Rec.Env) (castDouble : Str → Option Nat) : Registry Sink Console.Filter Formatter Empty :=
  [.filter (ch! "severity") severityFilter,
   .formatter (ch! "json") jsonFormatter,
   .formatter (ch! "string") (stringFormatter env castDouble),
   .formatter (ch! "tskv") tskvFormatter,
   .sink (ch! "asynchronous") (sink (ch! "asynchronous")),
   .sink (ch! "console") consoleSink,
   .sink (ch! "file") fileSink,
   .sink (ch! "null") nullSink,
   .sink (ch! "tcp") (socketSink .tcp),
   .sink (ch! "udp") (socketSink .udp),
   .sink (ch! "syslog") syslogSink,
   .handler (ch! "blocking") .blocking].foldl Registry.add Registry.empty

end Blackhole.Essentials
