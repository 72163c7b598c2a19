import Verif.Scope.Model

/-!
# Specification of scoped attributes (C04, C05)

What a user expects: every logger has, for every thread, the stack of scopes that the thread opened on it and
has not closed. Nothing here refers to pointers, managers or memory.

`SStep` says which operations the library promises to support and what they do. Operations that it does not
relate (for example closing scopes out of order, or using a moved-from logger) are outside the promise.
-/

namespace Blackhole.Scope

inductive Status where
  | absent
  | live
  /-- Consumed by a move executed on that thread. It may only be destroyed or assigned to by that thread. -/
  | movedFrom (t : Thread)
  deriving DecidableEq, Repr

structure SState where
  status : LoggerId → Status
  /-- Open scopes of a thread on a logger, newest first. -/
  stack : LoggerId → Thread → List (Addr × AttrList)
  /-- Number of scopes opened so far; the next scope object gets this name. -/
  opened : Nat

def SState.init : SState := { status := fun _ => .absent, stack := fun _ _ => [], opened := 0 }

/-- The scopes of thread `t` on logger `l` become `v`. -/
def SState.setStack (s : SState) (l : LoggerId) (t : Thread) (v : List (Addr × AttrList)) : SState :=
  { s with stack := fun l' t' => if l' = l ∧ t' = t then v else s.stack l' t' }

/-- Logger `src` is consumed by thread `t`: its scopes on that thread now belong to `dst`. -/
def SState.transfer (s : SState) (t : Thread) (dst src : LoggerId) : SState :=
  { status := fun l => if l = dst then .live else if l = src then .movedFrom t else s.status l
    stack := fun l t' =>
      if l = dst then (if t' = t then s.stack src t else s.stack dst t')
      else if l = src then [] else s.stack l t'
    opened := s.opened }

inductive SStep : SState → Op → SState → Option (List AttrList) → Prop where
  | construct {s l} (h : s.status l = .absent) :
      SStep s (.construct l) { s with status := fun l' => if l' = l then .live else s.status l' } none
  | open {s t l x} (h : s.status l = .live) :
      SStep s (.open t l x)
        { s.setStack l t ((s.opened, x) :: s.stack l t) with opened := s.opened + 1 } none
  /-- A thread closes its newest scope on some logger. -/
  | close {s t l a x rest} (h : s.stack l t = (a, x) :: rest) :
      SStep s (.close t a) (s.setStack l t rest) none
  /-- A record logged by `t` carries the scopes of `t` on that logger, newest first. -/
  | log {s t l} (h : s.status l = .live) :
      SStep s (.log t l) s (some ((s.stack l t).map Prod.snd))
  /-- Move construction, when no other thread has scopes open on the source. -/
  | moveConstruct {s t dst src} (hd : s.status dst = .absent) (hs : s.status src = .live)
      (ho : ∀ t', t' ≠ t → s.stack src t' = []) :
      SStep s (.moveConstruct t dst src) (s.transfer t dst src) none
  /-- Move assignment, when no other thread has scopes open on the source, and the calling thread has none
  open on the destination. -/
  | moveAssign {s t dst src} (hne : dst ≠ src)
      (hd : (s.status dst = .live ∧ s.stack dst t = []) ∨ s.status dst = .movedFrom t)
      (hs : s.status src = .live) (ho : ∀ t', t' ≠ t → s.stack src t' = []) :
      SStep s (.moveAssign t dst src) (s.transfer t dst src) none
  | moveAssignSelf {s t l} (h : s.status l = .live) : SStep s (.moveAssign t l l) s none
  | destroy {s l} (h : s.status l ≠ .absent) (ho : ∀ t, s.stack l t = []) :
      SStep s (.destroy l) { s with status := fun l' => if l' = l then .absent else s.status l' } none

/-- A history within the promise, with the outputs of its `log` operations. -/
inductive SRun : SState → List Op → SState → List (List AttrList) → Prop where
  | nil {s} : SRun s [] s []
  | cons {s op s' out ops s'' outs} (h : SStep s op s' out) (t : SRun s' ops s'' outs) :
      SRun s (op :: ops) s'' (out.toList ++ outs)

end Blackhole.Scope
