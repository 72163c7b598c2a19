import Verif.File.Model
import Verif.Config.Model

/-! # Making a file sink from a configuration (src/sink/file.cpp:211-247) -/

namespace Blackhole.File

open Config (Node Opt Mismatch)

/-- What is thrown by `from` (src/sink/file.cpp:215-247). -/
inductive ConfigError where
  | mismatch (e : Mismatch)
  /-- `std::invalid_argument("field 'path' is required")`. -/
  | pathRequired
  | parse (e : ParseError)
  /-- `std::invalid_argument("rotate type ... is not registered")`. -/
  | rotateUnknown (type : Str)
  deriving DecidableEq, Repr

/-- src/sink/file.cpp:225-234. Values of other types than these two are ignored. -/
def applyFlush (b : Builder) (flush : Opt) : Except ConfigError Builder :=
  match flush with
  | none => .ok b
  | some n =>
    match n.value with
    | .int z => if n.value.isUint64 then .ok (b.call (.flushEvents z.toNat)) else .ok b
    | .str s =>
      match parseDunit (Config.cstr s) with
      | .error e => .error (.parse e)
      | .ok bytes => .ok (b.call (.flushBytes .bytes bytes))
    | _ => .ok b

/-- src/sink/file.cpp:236-244. -/
def applyRotate (b : Builder) (rotate : Opt) : Except ConfigError Builder :=
  match rotate with
  | none => .ok b
  | some n =>
    match (n.key (ch! "type")).toString with
    | .error e => .error (.mismatch e)
    | .ok none => .ok b
    | .ok (some t) => if t = ch! "stat" then .ok (b.call .rotateStat) else .error (.rotateUnknown t)

/-- `factory<sink::file_t>::from` (src/sink/file.cpp:215-247). The path is returned with the sink. -/
def fromConfig (config : Node) : Except ConfigError (Str × Sink) :=
  match (config.key (ch! "path")).toString with
  | .error e => .error (.mismatch e)
  | .ok none => .error .pathRequired
  | .ok (some path) =>
    match applyFlush Builder.init (config.key (ch! "flush")) with
    | .error e => .error e
    | .ok b =>
      match applyRotate b (config.key (ch! "rotate")) with
      | .error e => .error e
      | .ok b => .ok (path, b.build)

end Blackhole.File
