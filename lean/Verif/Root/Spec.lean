import Verif.Root.Model

/-!
# Specification of one log call (C01, C02, C03, C07)

Projections of the observable trace, and the expected attribute order.
-/

namespace Blackhole.Root

/-- The handler calls of a trace, with the record each handler got. -/
def calls : Trace → List (Nat × Rec)
  | [] => []
  | .handle i r _ :: tr => (i, r) :: calls tr
  | _ :: tr => calls tr

/-- How often the supplier was called. -/
def supplies : Trace → Nat
  | [] => 0
  | .supply :: tr => supplies tr + 1
  | _ :: tr => supplies tr

/-- The records the filter was asked about. -/
def filtered : Trace → List Rec
  | [] => []
  | .filter r :: tr => r :: filtered tr
  | _ :: tr => filtered tr

/-- Lines on standard output. -/
def printed : Trace → List Str
  | [] => []
  | .stdout l :: tr => l :: printed tr
  | _ :: tr => printed tr

/-- The line reported for a handler call that ended with an exception. -/
def report : HOut → List Str
  | .ok => []
  | .throwStd what => ["logging core error occurred: ".toList ++ what]
  | .throwOther => ["logging core error occurred: unknown".toList]

/-- Calling handlers number `i`, `i+1`, ... with record `r`, ending as listed: each call is followed by its
report, if any. -/
def blocks (r : Rec) : Nat → List HOut → Trace
  | _, [] => []
  | i, o :: os => .handle i r o :: ((report o).map Ev.stdout ++ blocks r (i + 1) os)

/-- The wrappers of a logger in the order a call passes through them. -/
def Logger.wrappers : Logger → List Attrs
  | .root => []
  | .wrapper a inner => a :: inner.wrappers

/-- Expected attributes of a record. -/
def expectedAttributes (call : Pack) (wrappers : List Attrs) (scopes : List AttrList) : Pack :=
  call ++ wrappers.map viewsOf ++ scopes

end Blackhole.Root
