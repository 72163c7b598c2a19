import Verif.File.Factory
import Verif.File.Props
import Verif.Config.Props

/-! # Properties of file sink configuration: C46 -/

namespace Blackhole.File

open Config (Node Json Step HasAt lookup lookup_snoc plain_snoc none_of_not some_of)

/-- The text suffix (C18) that means the same as a unit of the typed interface. -/
def suffixOf : Unit' → Str
  | .bytes => ch! "B"
  | .kilobytes => ch! "kB"
  | .megabytes => ch! "MB"
  | .gigabytes => ch! "GB"
  | .kibibytes => ch! "KiB"
  | .mibibytes => ch! "MiB"
  | .gibibytes => ch! "GiB"

/-- The flush policy that a list of calls asks for: the last one wins. -/
inductive LastFlush : List Call → FlusherFactory → Prop
  | bytes {before after : List Call} {u : Unit'} {n m : Nat} : (∀ c ∈ after, c = .rotateStat) →
      Suffix (suffixOf u) m → LastFlush (before ++ .flushBytes u n :: after) (.bytecount (n * m % 2 ^ 64))
  | events {before after : List Call} {n : Nat} : (∀ c ∈ after, c = .rotateStat) →
      LastFlush (before ++ .flushEvents n :: after) (.repeat n)
  | none {calls : List Call} : (∀ c ∈ calls, c = .rotateStat) → LastFlush calls (.repeat 0)

/-- The built sink has the flush policy of the last call that set one, and rotates exactly if that was asked for; it
has not opened anything yet. -/
theorem C46_builder (calls : List Call) :
    ∃ f, LastFlush calls f ∧ (calls.foldl Builder.call Builder.init).build
      = Sink.init (if .rotateStat ∈ calls then .stat else .null) f := by
  have hu : u64 = 2 ^ 64 := by decide
  induction calls using snoc_induction with
  | nil => exact ⟨_, .none (by simp), by simp [Builder.build, Builder.init]⟩
  | snoc calls c ih =>
    obtain ⟨f, hf, hb⟩ := ih
    have hb1 : (calls.foldl Builder.call Builder.init).rotate = if .rotateStat ∈ calls then .stat else .null := by
      have := congrArg Sink.rotateFactory hb
      simpa [Builder.build, Sink.init] using this
    have hb2 : (calls.foldl Builder.call Builder.init).flusher = f := by
      have := congrArg Sink.flusherFactory hb
      simpa [Builder.build, Sink.init] using this
    rw [List.foldl_append]
    cases c with
    | flushBytes u n =>
      have hsuf : Suffix (suffixOf u) u.num := by cases u <;> constructor
      refine ⟨_, .bytes (before := calls) (after := []) (u := u) (n := n) (by simp) hsuf, ?_⟩
      simp [Builder.call, Builder.build, hb1, toBytes, hu]
    | flushEvents n =>
      refine ⟨_, .events (before := calls) (after := []) (n := n) (by simp), ?_⟩
      simp [Builder.call, Builder.build, hb1]
    | rotateStat =>
      refine ⟨f, ?_, by simp [Builder.call, Builder.build, hb2]⟩
      have hcons : ∀ (x : Call) (before after : List Call),
          (before ++ x :: after) ++ [Call.rotateStat] = before ++ x :: (after ++ [Call.rotateStat]) := by simp
      have hall : ∀ after : List Call, (∀ c ∈ after, c = Call.rotateStat) →
          ∀ c ∈ after ++ [Call.rotateStat], c = Call.rotateStat := by
        intro after h c hc
        rcases List.mem_append.1 hc with hc | hc
        · exact h c hc
        · exact List.mem_singleton.1 hc
      cases hf with
      | bytes h hm => rw [hcons]; exact .bytes (hall _ h) hm
      | events h => rw [hcons]; exact .events (hall _ h)
      | none h => exact .none (hall _ h)

example : LastFlush [.flushEvents 3, .flushBytes .mibibytes 2, .rotateStat] (.bytecount 2097152) :=
  .bytes (before := [.flushEvents 3]) (after := [.rotateStat]) (u := .mibibytes) (n := 2) (m := 2 ^ 20) (by simp) .MiB

/-- The flush policy that a configuration at path `p` asks for. -/
inductive FlushConfig (doc : Json) (p : List Step) : FlusherFactory → Prop
  | events {z : Int} : HasAt doc (p ++ [.key (ch! "flush")]) (.int z) → 0 ≤ z → z < 2 ^ 64 →
      FlushConfig doc p (.repeat z.toNat)
  | bytes {s : Str} {n : Nat} : HasAt doc (p ++ [.key (ch! "flush")]) (.str s) → '\x00' ∉ s → DataSize s n →
      FlushConfig doc p (.bytecount n)
  | absent : (∀ v, ¬ HasAt doc (p ++ [.key (ch! "flush")]) v) → FlushConfig doc p (.repeat 0)

/-- The rotation policy that a configuration at path `p` asks for. -/
inductive RotateConfig (doc : Json) (p : List Step) : RotateFactory → Prop
  | stat : HasAt doc (p ++ [.key (ch! "rotate"), .key (ch! "type")]) (.str (ch! "stat")) → RotateConfig doc p .stat
  | absent : (∀ v, ¬ HasAt doc (p ++ [.key (ch! "rotate"), .key (ch! "type")]) v) → RotateConfig doc p .null

/-- A node of a document with a path and recognised flush and rotation settings gives the sink they describe. -/
theorem C46_factory (doc : Json) (p : List Step) (hp : Config.Plain p) (node : Node) (hn : lookup doc p = some node)
    (path : Str) (hpath : HasAt doc (p ++ [.key (ch! "path")]) (.str path)) (hnul : '\x00' ∉ path)
    (f : FlusherFactory) (hf : FlushConfig doc p f) (r : RotateFactory) (hr : RotateConfig doc p r) :
    fromConfig node = .ok (path, Sink.init r f) := by
  have hu : u64 = 2 ^ 64 := by decide
  have e1 := some_of (plain_snoc hp (by decide)) hpath
  rw [lookup_snoc doc p node hn] at e1
  have hfl : applyFlush Builder.init (node.key (ch! "flush")) = .ok { rotate := .null, flusher := f } := by
    rw [← lookup_snoc doc p node hn]
    cases hf with
    | events h h0 h1 =>
      rw [some_of (plain_snoc hp (by decide)) h]
      have : (0 ≤ (_ : Int) ∧ _ < (2 : Int) ^ 64) := ⟨h0, h1⟩
      simp only [applyFlush, Config.Json.isUint64, this, decide_true, if_true, and_self]
      rfl
    | bytes h hs hd =>
      rename_i s n
      rw [some_of (plain_snoc hp (by decide)) h]
      simp only [applyFlush, Config.cstr_plain hs, (C18_accepts s n).2 hd]
      obtain ⟨_, _, _, _, _, _, _, _, rfl⟩ := hd
      simp [Builder.call, Builder.init, toBytes, hu, Unit'.num]
    | absent h =>
      rw [none_of_not (plain_snoc hp (by decide)) h]
      rfl
  have hro : applyRotate { rotate := .null, flusher := f } (node.key (ch! "rotate"))
      = .ok { rotate := r, flusher := f } := by
    have hassoc : p ++ [.key (ch! "rotate"), .key (ch! "type")] = (p ++ [.key (ch! "rotate")]) ++ [.key (ch! "type")] := by
      simp
    have hp2 : Config.Plain ((p ++ [.key (ch! "rotate")]) ++ [.key (ch! "type")]) :=
      plain_snoc (plain_snoc hp (by decide)) (by decide)
    rw [← lookup_snoc doc p node hn]
    cases hrot : lookup doc (p ++ [.key (ch! "rotate")]) with
    | none =>
      cases hr with
      | stat h =>
        rw [hassoc] at h
        have := some_of hp2 h
        have h2 : lookup doc ((p ++ [.key (ch! "rotate")]) ++ [.key (ch! "type")])
            = (lookup doc (p ++ [.key (ch! "rotate")])).key (ch! "type") := by
          simp [lookup, Config.Opt.path, Config.Opt.step]
        rw [h2, hrot] at this
        cases this
      | absent h => rfl
    | some rn =>
      simp only [applyRotate]
      rw [← lookup_snoc doc _ rn hrot]
      cases hr with
      | stat h =>
        rw [hassoc] at h
        rw [some_of hp2 h]
        rfl
      | absent h =>
        rw [hassoc] at h
        rw [none_of_not hp2 h]
        rfl
  unfold fromConfig
  rw [e1]
  simp only [Config.Opt.toString, Config.Opt.to, Node.toString, Except.map, Config.cstr_plain hnul, hfl, hro]
  rfl

/-- A missing path, a malformed size and an unknown rotation type are errors. -/
theorem C46_factory_rejects (doc : Json) (p : List Step) (hp : Config.Plain p) (node : Node)
    (hn : lookup doc p = some node)
    (h : (∀ v, ¬ HasAt doc (p ++ [.key (ch! "path")]) v)
      ∨ (∃ s, HasAt doc (p ++ [.key (ch! "flush")]) (.str s) ∧ '\x00' ∉ s ∧ ∀ n, ¬ DataSize s n)
      ∨ (∃ s, HasAt doc (p ++ [.key (ch! "rotate"), .key (ch! "type")]) (.str s) ∧ '\x00' ∉ s ∧ s ≠ ch! "stat")) :
    ∃ e, fromConfig node = .error e := by
  unfold fromConfig
  split
  · exact ⟨_, rfl⟩
  · exact ⟨_, rfl⟩
  · rename_i path hpath
    rcases h with h | ⟨s, h, hs, hd⟩ | ⟨s, h, hs, hne⟩
    · rw [← lookup_snoc doc p node hn, none_of_not (plain_snoc hp (by decide)) h] at hpath
      cases hpath
    · obtain ⟨e, he⟩ := (C18_rejects s).1 hd
      rw [← lookup_snoc doc p node hn, some_of (plain_snoc hp (by decide)) h]
      simp only [applyFlush, Config.cstr_plain hs, he]
      exact ⟨_, rfl⟩
    · split
      · exact ⟨_, rfl⟩
      · rename_i b _
        have hassoc : p ++ [.key (ch! "rotate"), .key (ch! "type")]
            = (p ++ [.key (ch! "rotate")]) ++ [.key (ch! "type")] := by simp
        have hp2 : Config.Plain ((p ++ [.key (ch! "rotate")]) ++ [.key (ch! "type")]) :=
          plain_snoc (plain_snoc hp (by decide)) (by decide)
        rw [hassoc] at h
        have h1 := some_of hp2 h
        rw [← lookup_snoc doc p node hn]
        cases hrot : lookup doc (p ++ [.key (ch! "rotate")]) with
        | none =>
          have h2 : lookup doc ((p ++ [.key (ch! "rotate")]) ++ [.key (ch! "type")])
              = (lookup doc (p ++ [.key (ch! "rotate")])).key (ch! "type") := by
            simp [lookup, Config.Opt.path, Config.Opt.step]
          rw [h2, hrot] at h1
          cases h1
        | some rn =>
          simp only [applyRotate]
          rw [← lookup_snoc doc _ rn hrot, h1]
          refine ⟨.rotateUnknown s, ?_⟩
          simp [Config.Opt.toString, Config.Opt.to, Node.toString, Except.map, Config.cstr_plain hs, hne]

/-- `{"path": "/l", "flush": "2kB", "rotate": {"type": "stat"}}`. -/
example : fromConfig (Node.root (.obj [(ch! "path", .str (ch! "/l")), (ch! "flush", .str (ch! "2kB")),
      (ch! "rotate", .obj [(ch! "type", .str (ch! "stat"))])])) = .ok (ch! "/l", Sink.init .stat (.bytecount 2000)) := rfl

/-- A negative or fractional flush count is silently ignored. -/
theorem C46_bad_flush_ignored (path : Str) (hnul : '\x00' ∉ path) (z : Int) (hz : z < 0) :
    fromConfig (Node.root (.obj [(ch! "path", .str path), (ch! "flush", .int z)]))
      = .ok (path, Sink.init .null (.repeat 0)) := by
  have h0 : ¬ 0 ≤ z := by omega
  have hk : ∀ k, k = ch! "path" ∨ k = ch! "flush" ∨ k = ch! "rotate" → Config.cstr k = k := by
    rintro k (rfl | rfl | rfl) <;> rfl
  simp [fromConfig, Node.key, Node.root, hk, Config.member, Config.Opt.toString, Config.Opt.to, Node.toString,
    Except.map, Config.cstr_plain hnul, applyFlush, Config.Json.isUint64, h0, applyRotate, Builder.build, Builder.init]

end Blackhole.File
