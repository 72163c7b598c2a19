import Verif.Ring.Model
import Verif.RecordBuf.Model

/-!
# The asynchronous sink with the memory of its records

`Verif.Ring` moves records as values through the array queue. Here the record that a call passes is a set of views into
storage of the caller, the cells of the queue, the temporary of `emit` and the variable `result` of the worker are
`recordbuf_t` objects with addresses (`Verif.RecordBuf`), and the steps of the queue run the constructors, move assignments
and destructors that the code runs there. A view that outlives its storage is undefined behaviour.

Simplifications: a cell is default-constructed with the queue and lives as long as it; `result` exists from the lambda of
`dequeue_with` to the end of the call of the wrapped sink and not also in rounds of the loop that find nothing; the
`std::string` with the formatted message is a value, because nothing keeps a view of it.
-/

namespace Blackhole.AsyncMem

open RecordBuf (Mem FRec FSV Op readF)
open Root (Rec)
open Async (Policy)

/-- The arguments of a call of `emit` (src/sink/asynchronous.p.cpp:94), and what its lazy attributes print in it. `contents`
and `text` are what the views showed when the call was made; they are kept for the statements and no step uses them. -/
structure Call where
  record : FRec
  message : FSV
  eval : Nat → Str
  contents : Rec
  text : Str

/-- The address of the `recordbuf_t` in a cell of the queue (src/sink/asynchronous.hpp:40-45). Cells, temporaries and
`result` have different addresses. -/
def cellAt (i : Nat) : Nat := 3 * i
/-- The address of the temporary `recordbuf_t` in the lambda of `emit` on thread `p`
(src/sink/asynchronous.p.cpp:106). -/
def tempAt (p : Nat) : Nat := 3 * p + 1
/-- The address of the `recordbuf_t` in `result` (src/sink/asynchronous.p.cpp:125). -/
def resultAt : Nat := 2

/-- The queue and the threads of `Verif.Ring` with the memory of the records (src/sink/asynchronous.hpp:40-53). -/
structure State where
  ring : Ring.State Call
  mem : Mem
  /-- The `message` strings of the `value_type` objects, by the address of the record beside them. -/
  texts : Nat → Option Str
  /-- Who has made calls. -/
  threads : List Nat
  /-- What the wrapped sink read in its calls. -/
  seen : List (Rec × Str)

/-- The constructor (src/sink/asynchronous.p.cpp:67-83). -/
def State.init (lib : RecordBuf.Lib) (cap : Nat) : State :=
  { ring := .init, mem := (List.range cap).foldl (fun m i => m.constructDefault (cellAt i)) (Mem.init lib),
    texts := fun o => if o ∈ (List.range cap).map cellAt then some [] else none, threads := [], seen := [] }

/-- The steps of `Verif.Ring` (src/sink/asynchronous.p.cpp:85-147) and what the callers do with their storage. -/
inductive Cmd where
  | emit (p : Nat) (record : FRec) (message : FSV) (eval : Nat → Str)
  | producer (p : Nat) (spurious : Bool)
  | throws (p : Nat)
  | consumer (spurious : Bool)
  | consumerThrows
  | stop
  | join
  /-- Storage of the callers is changed or freed. -/
  | foreign (a : Nat) (x : Option Str)

/-- The call of `emit` that a producer is in (src/sink/asynchronous.p.cpp:94-121). -/
def inCall : Ring.PPc Call → Option Call
  | .idle => none
  | .start e | .loaded e _ | .seen e _ _ | .behind e _ | .full e | .claimed e _ | .writing e _ | .written e _ => some e

/-- The views of the call (src/sink/asynchronous.p.cpp:94, the two parameters) show what they showed when it was made.
-/
def Call.unchanged (g : Nat → Option Str) (e : Call) : Bool :=
  e.record.contents g = some e.contents ∧ readF g e.message = some e.text

/-- `message.to_string()` (src/sink/asynchronous.p.cpp:106). -/
def textOf (g : Nat → Option Str) (v : FSV) : Except UB Str :=
  match readF g v with
  | some t => .ok t
  | none => .error .dangling

/-- The `std::string` object at an address: `value_type::message` (src/sink/asynchronous.hpp:42). -/
def State.textAt (s : State) (o : Nat) : Except UB Str :=
  match s.texts o with
  | some t => .ok t
  | none => .error .dangling

/-- What a step of producer `p` does to the memory, where `pc` is where it was (src/sink/asynchronous.p.cpp:106). -/
def State.produced (cap : Nat) (s : State) (p : Nat) : Ring.PPc Call → Except UB State
  | .claimed e _ =>
    match s.mem.step (.capture (tempAt p) e.eval e.record), textOf s.mem.foreign e.message with
    | .ok mem, .ok t => .ok { s with mem := mem, texts := Ring.upd s.texts (tempAt p) (some t) }
    | .error u, _ => .error u
    | _, .error u => .error u
  | .writing _ pos =>
    let c := cellAt (Ring.cell cap pos)
    match s.mem.run [.moveAssign c (tempAt p), .destroy (tempAt p)], s.textAt (tempAt p) with
    | .ok mem, .ok t => .ok { s with mem := mem, texts := Ring.upd (Ring.upd s.texts (tempAt p) none) c (some t) }
    | .error u, _ => .error u
    | _, .error u => .error u
  | _ => .ok s

/-- The lambda throws (src/sink/asynchronous.p.cpp:106): in the constructor of the temporary, or when it exists. -/
def State.failed (s : State) (p : Nat) : Ring.PPc Call → Except UB State
  | .writing _ _ =>
    match s.mem.step (.destroy (tempAt p)) with
    | .ok mem => .ok { s with mem := mem, texts := Ring.upd s.texts (tempAt p) none }
    | .error u => .error u
  | _ => .ok s

/-- `wrapped->emit(result.record.into_view(), result.message)` (src/sink/asynchronous.p.cpp:136): the wrapped sink reads all
that it is given. -/
def State.shown (s : State) : Except UB State :=
  match s.mem.intoView resultAt, s.textAt resultAt with
  | .ok r, .ok t => .ok { s with seen := s.seen ++ [(r, t)] }
  | .error u, _ => .error u
  | _, .error u => .error u

/-- The end of the scope of `result` (src/sink/asynchronous.p.cpp:146). -/
def State.release (s : State) : Except UB State :=
  match s.mem.step (.destroy resultAt) with
  | .ok mem => .ok { s with mem := mem, texts := Ring.upd s.texts resultAt none }
  | .error u => .error u

/-- What a step of the worker does to the memory (src/sink/asynchronous.p.cpp:125-146). -/
def State.consumed (cap : Nat) (s : State) : Ring.CPc Call → Except UB State
  | .reading pos =>
    let c := cellAt (Ring.cell cap pos)
    match s.mem.run [.default resultAt, .moveAssign resultAt c], s.textAt c with
    | .ok mem, .ok t => .ok { s with mem := mem, texts := Ring.upd (Ring.upd s.texts c (some [])) resultAt (some t) }
    | .error u, _ => .error u
    | _, .error u => .error u
  | .deliver _ =>
    match s.shown with
    | .ok s => s.release
    | .error u => .error u
  | _ => .ok s

/-- The queue after its step, the memory after what belongs to it. No code of its own: it puts the lambdas
(src/sink/asynchronous.p.cpp:105-107, 126-128) into the steps of the queue. -/
def State.with (ring : Option (Ring.State Call)) (f : Except UB State) : Option (Except UB State) :=
  ring.map fun r => f.map fun s => { s with ring := r }

/-- One step of one thread (src/sink/asynchronous.p.cpp:85-147). A call must be made with views that show something,
and what they show is not changed until it returns; these are the duties of the caller. -/
def State.step (cap : Nat) (policy : Policy) (s : State) : Cmd → Option (Except UB State)
  | .emit p record message eval =>
    match record.contents s.mem.foreign, readF s.mem.foreign message with
    | some contents, some text =>
      State.with (s.ring.step cap policy (.emit p ⟨record, message, eval, contents, text⟩))
        (.ok { s with threads := p :: s.threads })
    | _, _ => none
  | .producer p spurious => State.with (s.ring.step cap policy (.producer p spurious)) (s.produced cap p (s.ring.producers p))
  | .throws p => State.with (s.ring.step cap policy (.throws p)) (s.failed p (s.ring.producers p))
  | .consumer spurious => State.with (s.ring.step cap policy (.consumer spurious)) (s.consumed cap s.ring.consumer)
  | .consumerThrows => State.with (s.ring.step cap policy .consumerThrows) s.shown
  | .stop => State.with (s.ring.step cap policy .stop) (.ok s)
  | .join => State.with (s.ring.step cap policy .join) (.ok s)
  | .foreign a x =>
    let g := fun y => if y = a then x else s.mem.foreign y
    if s.threads.all (fun p => (inCall (s.ring.producers p)).all (Call.unchanged g)) then
      some ((s.mem.step (.foreign a x)).map fun mem => { s with mem := mem })
    else none

/-- Runs a schedule (src/sink/asynchronous.p.cpp:85-147), up to undefined behaviour. -/
def State.run (cap : Nat) (policy : Policy) (s : State) : List Cmd → Option (Except UB State)
  | [] => some (.ok s)
  | c :: cs =>
    match s.step cap policy c with
    | none => none
    | some (.error u) => some (.error u)
    | some (.ok s) => s.run cap policy cs

/-- The end of the destructor (src/sink/asynchronous.p.cpp:85-88): after `join` the members are destroyed, and with
`queue` (src/sink/asynchronous.hpp:47) the buffers in its cells. That the queue takes out what it still has before is
left out. -/
def State.destroyed (cap : Nat) (s : State) : Except UB Mem :=
  s.mem.run ((List.range cap).map fun i => .destroy (cellAt i))

end Blackhole.AsyncMem
