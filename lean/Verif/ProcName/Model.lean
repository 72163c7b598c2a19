import Verif.Base

/-! # The name of the process (src/procname.cpp)

On Linux the name is a view into memory that the C library and the program own: `program_invocation_short_name` is a pointer
that anybody may set, usually into `argv[0]`, and programs overwrite that memory to change their title. The view is made on
first use and kept in a static variable. Formatters print it as a C string, without its length; the system log sink copies as
many characters as the view has.

Simplifications: the first use and every other use is one step, memory does not change meanwhile. The branch for macOS is
in `Verif.ProcName.Mac`. -/

namespace Blackhole.ProcName

/-- A pointer to a character (src/procname.cpp:23): a block of memory and a place in it. -/
structure Ptr where
  block : Nat
  off : Nat
  deriving DecidableEq, Repr

/-- The blocks of memory that exist, with their characters (src/procname.cpp:23). -/
abbrev Mem := Nat → Option Str

/-- What is shown: the argument printed for `{process:s}` (src/formatter/string.cpp:192-194), or the identity of a new system log sink
(src/sink/syslog.cpp:20). -/
inductive Out where
  | printed (text : Str)
  | identity (text : Str)
  deriving DecidableEq, Repr

/-- The memory, `program_invocation_short_name`, the static variable `name` with pointer and length once it is initialised
(src/procname.cpp:40), and what was shown. -/
structure St where
  mem : Mem
  short : Ptr
  name : Option (Ptr × Nat)
  shown : List Out

/-- What the process does. -/
inductive Op where
  /-- A record is formatted with `{process:s}` (src/formatter/string.cpp:192-194). -/
  | print
  /-- A system log sink is made (src/sink/syslog.cpp:17-23). -/
  | construct
  /-- The program changes its memory, in any way (around src/procname.cpp:23). -/
  | memory (m : Mem)
  /-- The program sets `program_invocation_short_name` (read in src/procname.cpp:23). -/
  | point (p : Ptr)

/-- The C string at a place: what `strlen` (src/procname.cpp:23) counts, and what the formatting library reads
(src/formatter/string.cpp:193). -/
def Mem.cstring (m : Mem) (p : Ptr) : Except UB Str :=
  match m p.block with
  | none => .error .dangling
  | some b => if '\x00' ∈ b.drop p.off then .ok ((b.drop p.off).takeWhile (· ≠ '\x00')) else .error .outOfBounds

/-- The characters of a view (`to_string`, src/sink/syslog.cpp:20). -/
def Mem.chars (m : Mem) (p : Ptr) (n : Nat) : Except UB Str :=
  match m p.block with
  | none => .error .dangling
  | some b => if p.off + n ≤ b.length then .ok ((b.drop p.off).take n) else .error .outOfBounds

/-- `procname()` (src/procname.cpp:39-42) with `procname(pid_t)` (src/procname.cpp:20-23): the view and the state with the
static variable initialised. -/
def St.procname (s : St) : Except UB ((Ptr × Nat) × St) :=
  match s.name with
  | some v => .ok (v, s)
  | none =>
    match s.mem.cstring s.short with
    | .error u => .error u
    | .ok t => .ok ((s.short, t.length), { s with name := some (s.short, t.length) })

/-- One thing that the process does (src/formatter/string.cpp:192-194, src/sink/syslog.cpp:17-23). -/
def St.step (s : St) : Op → Except UB St
  | .print =>
    match s.procname with
    | .error u => .error u
    | .ok (v, s) =>
      match s.mem.cstring v.1 with
      | .error u => .error u
      | .ok t => .ok { s with shown := s.shown ++ [.printed t] }
  | .construct =>
    match s.procname with
    | .error u => .error u
    | .ok (v, s) =>
      match s.mem.chars v.1 v.2 with
      | .error u => .error u
      | .ok t => .ok { s with shown := s.shown ++ [.identity t] }
  | .memory m => .ok { s with mem := m }
  | .point p => .ok { s with short := p }

/-- All of it in order (src/procname.cpp:39-42). -/
def St.run : St → List Op → Except UB St
  | s, [] => .ok s
  | s, op :: ops =>
    match s.step op with
    | .error u => .error u
    | .ok s => s.run ops

/-- The part of a path after the last slash: where the C library lets `program_invocation_short_name` (src/procname.cpp:23)
point. -/
def lastPart (path : Str) : Str := (path.reverse.takeWhile (· ≠ '/')).reverse

/-- A process starts (before src/procname.cpp:23): `argv[0]` is in block 0, with the other arguments and the environment behind
it; the C library has set `program_invocation_short_name`. -/
def St.start (path behind : Str) (others : Mem) : St :=
  { mem := fun b => if b = 0 then some (path ++ '\x00' :: behind) else others b,
    short := ⟨0, path.length - (lastPart path).length⟩, name := none, shown := [] }

end Blackhole.ProcName
