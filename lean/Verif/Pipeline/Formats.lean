import Verif.Pipeline.Props
import Verif.Json.Props
import Verif.Tskv.Props

/-! # Properties of the whole way from log calls to sinks: what the JSON and the TSKV formatter give for a call (C65) -/

namespace Blackhole.Pipeline

/-- **C65, JSON.** What a JSON formatter gives for the record of a call is the text of a tree with the record's message,
the id of the thread that made the call as the operating system knows it, and the other fields, at the places to which
they are routed (under the conditions of C28). -/
theorem C65_json (p : Process) (c : Call) (d : Json.Data) (r : Root.Rec) (seen : Rec.Record) (hseen : SeenAs p r seen)
    (fs : List (Str × Json.Leaf)) (placeOf : Str → List Str) (htid : r.tid < 2 ^ 64) (hs1 : -2 ^ 31 ≤ r.severity)
    (hs2 : r.severity < 2 ^ 31) (hn : d.severity.length < 2 ^ 63)
    (hf : Json.FieldsShow { p.env with lwp := c.lwp } p.clock d seen fs)
    (hp : ∀ f ∈ fs, Json.Points (Json.routeText d f.1) (placeOf f.1))
    (hi : ∀ f ∈ fs, ∀ k ∈ (placeOf f.1).tail, Json.NotIndex k) (hc : Json.NoCollision d placeOf fs) :
    ∃ t, Renders p c (.json d) r (Json.write p.dtoa t ++ if d.newline then ['\n'] else [])
      ∧ (∀ L, t.valuesAt L = (fs.filter fun f => placeOf f.1 = L).map fun f => (Json.shownAs d f.1, f.2))
      ∧ (∀ L k, k ∈ t.groupsAt L ↔ ∃ f ∈ fs, L ++ [k] <+: placeOf f.1) := by
  obtain ⟨t, -, h2, h3, h4, -⟩ := Json.C28_tree_partial { p.env with lwp := c.lwp } p.clock d seen fs placeOf
    (by rw [hseen.tid]; exact htid) (by rw [hseen.severity]; exact hs1) (by rw [hseen.severity]; exact hs2) hn hf hp hi hc
  exact ⟨t, ⟨seen, hseen, h2 p.dtoa⟩, h3, h4⟩

/-- **C65, TSKV.** What a TSKV formatter gives for the record of a call are the fields of the record in their order, those
that are not removed, under their configured names. -/
theorem C65_tskv (p : Process) (c : Call) (d : Tskv.Data) (r : Root.Rec) (seen : Rec.Record) (hseen : SeenAs p r seen)
    (times attrs : List (Str × Str)) (hpid : p.env.pid < 2 ^ 64) (htid : r.tid < 2 ^ 64) (hs1 : -2 ^ 31 ≤ r.severity)
    (hs2 : r.severity < 2 ^ 31) (ht : Both (Tskv.TimesShow p.clock seen) d.timestamps times)
    (ha : Both (Tskv.AttributeShows { p.env with lwp := c.lwp }) seen.pack.flatten attrs) :
    Renders p c (.tskv d) r (ch! "tskv"
      ++ Tskv.written d (d.constants ++ times.map (fun f => (f.1, Tskv.escapeVal f.2))
        ++ [(ch! "severity", StringFmt.decimalText r.severity), (ch! "pid", Nat.toDigits 10 p.env.pid)])
      ++ Tskv.fieldText (ch! "tid", Tskv.hexText r.tid)
      ++ Tskv.written d ((ch! "message", Tskv.escapeVal r.formatted)
        :: attrs.map fun f => (f.1, Tskv.escapeVal f.2))) := by
  refine ⟨seen, hseen, ?_⟩
  have := Tskv.C27_fields_partial { p.env with lwp := c.lwp } p.clock d seen times attrs hpid (by rw [hseen.tid]; exact htid)
    (by rw [hseen.severity]; exact hs1) (by rw [hseen.severity]; exact hs2) ht ha
  rw [hseen.severity, hseen.tid, hseen.message] at this
  exact this

/-! ### A concrete case -/

namespace Example

/-- The conditions of `C65_json` and `C65_tskv`: a record with an attribute. -/
def record : Root.Rec := ⟨[], ch! "n=3", 2, 5000, 5, [[(ch! "k", .sint 7#64)]]⟩

def jsonData : Json.Data := Json.plain [(ch! "", [ch! "message"])] (ch! "/fields") [] false

example : SeenAs process record (recordOf process record)
    ∧ Json.FieldsShow { process.env with lwp := 6 } process.clock jsonData (recordOf process record)
      [(ch! "message", .str (ch! "n=3")), (ch! "lwp", .int 6), (ch! "thread", .str (ch! "0x5")),
        (ch! "process", .int 1), (ch! "severity", .int 2), (ch! "timestamp", .int 5), (ch! "k", .int 7)] :=
  ⟨seen_iff.2 rfl, _, _, _, _, _, _, _, rfl, rfl, rfl, rfl, rfl, .inr ⟨.inr (Nat.zero_le _), rfl⟩, .inr ⟨rfl, rfl⟩,
    .cons (.sint rfl) .nil⟩

example : Both (Tskv.TimesShow process.clock (recordOf process record)) Tskv.Data.init.timestamps [(ch! "timestamp", ch! "now")]
    ∧ Both (Tskv.AttributeShows { process.env with lwp := 6 }) (recordOf process record).pack.flatten [(ch! "k", ch! "7")] :=
  ⟨.cons ⟨rfl, rfl⟩ .nil, .cons ⟨rfl, .sint (by decide) (by decide)⟩ .nil⟩

end Example

end Blackhole.Pipeline
