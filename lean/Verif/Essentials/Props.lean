import Verif.Essentials.Model
import Verif.Registry.Props
import Verif.File.FactoryProps
import Verif.Syslog.Props
import Verif.StringFmt.Fields

/-! # Properties of the configured registry: C64 -/

namespace Blackhole.Essentials

open Config (Node Json Step HasAt Plain path_iff)
open Registry (Error Kind)

/-! ## What a configuration describes -/

/-- The value has the text `t` as its type. -/
def Typed (v : Json) (t : Str) : Prop := HasAt v [.key (ch! "type")] (.str t)

/-- The sink that a value of a configuration describes. -/
inductive Describes : Json → Sink → Prop
  | null {v : Json} : Typed v (ch! "null") → Describes v .null
  | file {v : Json} {path : Str} {f : File.FlusherFactory} {r : File.RotateFactory} : Typed v (ch! "file") →
      HasAt v [.key (ch! "path")] (.str path) → '\x00' ∉ path → File.FlushConfig v [] f → File.RotateConfig v [] r →
      Describes v (.file path (File.Sink.init r f))
  | tcp {v : Json} {host : Str} {port : Nat} : Typed v (ch! "tcp") → HasAt v [.key (ch! "host")] (.str host) →
      '\x00' ∉ host → HasAt v [.key (ch! "port")] (.int port) → port < 65536 → Describes v (.tcp host port)
  | udp {v : Json} {host : Str} {port : Nat} : Typed v (ch! "udp") → HasAt v [.key (ch! "host")] (.str host) →
      '\x00' ∉ host → HasAt v [.key (ch! "port")] (.int port) → port < 65536 → Describes v (.udp host port)
  | syslog {v : Json} {ps : List Int} : Typed v (ch! "syslog") →
      HasAt v [.key (ch! "priorities")] (.arr (ps.map .int)) → (∀ p ∈ ps, -2 ^ 31 ≤ p ∧ p < 2 ^ 31) →
      Describes v (.syslog ps)
  | syslogPlain {v : Json} : Typed v (ch! "syslog") → (∀ w, ¬ HasAt v [.key (ch! "priorities")] w) →
      Describes v (.syslog [])
  | console {v : Json} : Typed v (ch! "console") → (∀ w, ¬ HasAt v [.key (ch! "filter"), .key (ch! "type")] w) →
      Describes v (.console ⟨.stdout, fun _ => .neutral, fun _ => Console.Color.default⟩)
  | consoleAbove {v : Json} {t : Int} : Typed v (ch! "console") →
      HasAt v [.key (ch! "filter"), .key (ch! "type")] (.str (ch! "severity")) →
      HasAt v [.key (ch! "filter"), .key (ch! "threshold")] (.int t) → -2 ^ 63 ≤ t ∧ t < 2 ^ 63 →
      Describes v (.console ⟨.stdout, fun s => if t ≤ s then .neutral else .deny, fun _ => Console.Color.default⟩)
  | dropping {v w : Json} {k : Nat} {s : Sink} : Typed v (ch! "asynchronous") → HasAt v [.key (ch! "sink")] w →
      Describes w s → HasAt v [.key (ch! "factor")] (.int k) → 2 ≤ k → k ≤ 20 →
      HasAt v [.key (ch! "overflow")] (.str (ch! "drop")) → Describes v (.asynchronous ⟨2 ^ k, .drop⟩ s)
  | waiting {v w : Json} {k : Nat} {s : Sink} : Typed v (ch! "asynchronous") → HasAt v [.key (ch! "sink")] w →
      Describes w s → HasAt v [.key (ch! "factor")] (.int k) → 2 ≤ k → k ≤ 20 →
      HasAt v [.key (ch! "overflow")] (.str (ch! "wait")) → Describes v (.asynchronous ⟨2 ^ k, .wait⟩ s)

/-- The formatter that a value describes: that of its type, as its own configuration says (C27, C53, C55). -/
inductive DescribesFormatter (env : Rec.Env) (cd : Str → Option Nat) : Json → Formatter → Prop
  | json {v : Json} {d : Json.Data} : Typed v (ch! "json") → (∀ cursor, Json.fromConfig ⟨v, cursor⟩ = .ok d) →
      DescribesFormatter env cd v (.json d)
  | string {v : Json} {f : StringFmt.Formatter} : Typed v (ch! "string") →
      (∀ cursor, StringFmt.Formatter.fromConfig env cd ⟨v, cursor⟩ = .ok f) → DescribesFormatter env cd v (.string f)
  | tskv {v : Json} {d : Tskv.Data} : Typed v (ch! "tskv") → (∀ cursor, Tskv.fromConfig ⟨v, cursor⟩ = .ok d) →
      DescribesFormatter env cd v (.tskv d)

/-- The handler that a value describes. -/
def DescribesHandler (env : Rec.Env) (cd : Str → Option Nat) (v : Json) (fmt : Formatter) (sinks : List Sink) : Prop :=
  (Typed v (ch! "blocking") ∨ ∀ w, ¬ HasAt v [.key (ch! "type")] w)
  ∧ (∃ fv, HasAt v [.key (ch! "formatter")] fv ∧ DescribesFormatter env cd fv fmt)
  ∧ ((∃ svs, HasAt v [.key (ch! "sinks")] (.arr svs) ∧ Both Describes svs sinks)
    ∨ ((∀ w, ¬ HasAt v [.key (ch! "sinks")] w) ∧ sinks = []))

/-! ## Lemmas -/

theorem plain1 {k : Str} (h : '\x00' ∉ k) : Plain [.key k] := by
  intro x hx; simp at hx; subst hx; exact h

theorem plain2 {k l : Str} (h : '\x00' ∉ k) (h' : '\x00' ∉ l) : Plain [.key k, .key l] := by
  intro x hx; simp at hx; rcases hx with rfl | rfl <;> assumption

theorem key_some {n : Node} {k : Str} {v : Json} (hk : '\x00' ∉ k) (h : HasAt n.value [.key k] v) :
    n.key k = some ⟨v, n.cursor ++ Config.shown [.key k]⟩ :=
  (path_iff [.key k] (plain1 hk) n ⟨v, _⟩).2 ⟨h, rfl⟩

theorem key_none {n : Node} {k : Str} (hk : '\x00' ∉ k) (h : ∀ v, ¬ HasAt n.value [.key k] v) : n.key k = none := by
  cases hn : n.key k with
  | none => rfl
  | some m => exact absurd ((path_iff [.key k] (plain1 hk) n m).1 hn).1 (h _)

theorem key2_some {n : Node} {k l : Str} {v : Json} (hk : '\x00' ∉ k) (hl : '\x00' ∉ l)
    (h : HasAt n.value [.key k, .key l] v) :
    (n.key k).key l = some ⟨v, n.cursor ++ Config.shown [.key k, .key l]⟩ :=
  (path_iff [.key k, .key l] (plain2 hk hl) n ⟨v, _⟩).2 ⟨h, rfl⟩

theorem key2_none {n : Node} {k l : Str} (hk : '\x00' ∉ k) (hl : '\x00' ∉ l)
    (h : ∀ v, ¬ HasAt n.value [.key k, .key l] v) : (n.key k).key l = none := by
  cases hn : (n.key k).key l with
  | none => rfl
  | some m => exact absurd ((path_iff [.key k, .key l] (plain2 hk hl) n m).1 hn).1 (h _)

theorem absent {ms : List (Str × Json)} {k : Str} {p : List Step} (h : ∀ m ∈ ms, m.1 ≠ k) (v : Json) :
    ¬ HasAt (.obj ms) (.key k :: p) v := by
  intro hh
  generalize hd : Json.obj ms = d at hh
  cases hh with
  | key hb hx =>
    injection hd with hd
    exact h (k, _) (by rw [hd]; exact List.mem_append_right _ List.mem_cons_self) rfl

theorem str_some {v : Json} {s : Str} {c : Str} (hv : v = .str s) (hs : '\x00' ∉ s) :
    Config.Opt.toString (some ⟨v, c⟩) = .ok (some s) := by
  subst hv
  simp only [Config.Opt.toString, Config.Opt.to, Node.toString, Except.map, Config.cstr_plain hs]

theorem uint_some {z : Int} {c : Str} (h0 : 0 ≤ z) (h1 : z < 2 ^ 64) :
    Config.Opt.toUint64 (some ⟨.int z, c⟩) = .ok (some z) := by
  have : 0 ≤ z ∧ z < (2 : Int) ^ 64 := ⟨h0, h1⟩
  simp only [Config.Opt.toUint64, Config.Opt.to, Node.toUint64, Config.Json.isUint64, this, and_self, decide_true, if_true,
    Except.map]

theorem sint_some {z : Int} {c : Str} (h : -2 ^ 63 ≤ z ∧ z < 2 ^ 63) :
    Config.Opt.toSint64 (some ⟨.int z, c⟩) = .ok (some z) := by
  simp only [Config.Opt.toSint64, Config.Opt.to, Node.toSint64, Config.Json.isInt64, h, and_self, decide_true, if_true,
    Except.map]

theorem nul (s : Str) (h : s.all (· ≠ '\x00') = true) : '\x00' ∉ s := by
  intro hm
  have := List.all_eq_true.1 h _ hm
  simp at this

theorem type_of {n : Node} {t : Str} (h : Typed n.value t) (ht : '\x00' ∉ t) :
    (n.key (ch! "type")).toString = .ok (some t) := by
  rw [key_some (by decide) h, str_some rfl ht]

theorem file_ok {n : Node} {path : Str} {f : File.FlusherFactory} {r : File.RotateFactory}
    (h1 : HasAt n.value [.key (ch! "path")] (.str path)) (h2 : '\x00' ∉ path) (h3 : File.FlushConfig n.value [] f)
    (h4 : File.RotateConfig n.value [] r) : File.fromConfig n = .ok (path, File.Sink.init r f) := by
  have hu : File.u64 = 2 ^ 64 := by decide
  have hfl : File.applyFlush File.Builder.init (n.key (ch! "flush")) = .ok { rotate := .null, flusher := f } := by
    cases h3 with
    | events h h0 h1 =>
      rw [key_some (by decide) h]
      have : (0 ≤ (_ : Int) ∧ _ < (2 : Int) ^ 64) := ⟨h0, h1⟩
      simp only [File.applyFlush, Config.Json.isUint64, this, decide_true, if_true, and_self]
      rfl
    | bytes h hs hd =>
      rename_i s n
      rw [key_some (by decide) h]
      simp only [File.applyFlush, Config.cstr_plain hs, (File.C18_accepts s n).2 hd]
      obtain ⟨_, _, _, _, _, _, _, _, rfl⟩ := hd
      simp [File.Builder.call, File.Builder.init, File.toBytes, hu, File.Unit'.num]
    | absent h =>
      rw [key_none (by decide) h]
      rfl
  have hro : File.applyRotate { rotate := .null, flusher := f } (n.key (ch! "rotate"))
      = .ok { rotate := r, flusher := f } := by
    cases h4 with
    | stat h =>
      have := key2_some (by decide) (by decide) h
      cases hr : n.key (ch! "rotate") with
      | none => rw [hr] at this; cases this
      | some rn =>
        rw [hr] at this
        have : rn.key (ch! "type") = _ := this
        simp only [File.applyRotate]
        rw [this]
        rfl
    | absent h =>
      have := key2_none (by decide) (by decide) h
      cases hr : n.key (ch! "rotate") with
      | none => rfl
      | some rn =>
        rw [hr] at this
        have : rn.key (ch! "type") = _ := this
        simp only [File.applyRotate]
        rw [this]
        rfl
  unfold File.fromConfig
  rw [key_some (by decide) h1, str_some rfl h2]
  simp only [hfl, hro]
  rfl

theorem socket_ok {n : Node} {host : Str} {port : Nat} (h1 : HasAt n.value [.key (ch! "host")] (.str host))
    (h2 : '\x00' ∉ host) (h3 : HasAt n.value [.key (ch! "port")] (.int port)) (h4 : port < 65536) :
    Socket.fromConfig n = .ok (host, port) := by
  unfold Socket.fromConfig
  rw [key_some (by decide) h1, str_some rfl h2, key_some (by decide) h3, uint_some (by omega) (by omega)]
  simp only
  have : ((port : Int) % 2 ^ 16).toNat = port := by omega
  rw [this]

theorem syslog_ok {n : Node} {ps : List Int} (h : HasAt n.value [.key (ch! "priorities")] (.arr (ps.map .int)))
    (hz : ∀ p ∈ ps, -2 ^ 31 ≤ p ∧ p < 2 ^ 31) : Syslog.fromConfig n = .ok ps := by
  unfold Syslog.fromConfig
  rw [key_some (by decide) h]
  simp only [Node.each]
  rw [Syslog.mapM_ints _ ps hz]
  simp only [Except.map]
  congr 1
  rw [show ps = ps.map id from by simp]
  rw [List.map_map]
  apply List.map_congr_left
  intro z hz'
  have := hz z hz'
  simp only [Function.comp, id, Syslog.toInt32]
  omega

theorem console_ok {n : Node} {t : Int} (h1 : HasAt n.value [.key (ch! "filter"), .key (ch! "type")] (.str (ch! "severity")))
    (h2 : HasAt n.value [.key (ch! "filter"), .key (ch! "threshold")] (.int t)) (h3 : -2 ^ 63 ≤ t ∧ t < 2 ^ 63) :
    Console.fromConfig filters n
      = .ok ⟨.stdout, fun s => if t ≤ s then .neutral else .deny, fun _ => Console.Color.default⟩ := by
  have e1 := key2_some (by decide) (by decide) h1
  have e2 := key2_some (by decide) (by decide) h2
  unfold Console.fromConfig
  rw [e1, str_some rfl (by decide)]
  cases hf : n.key (ch! "filter") with
  | none => rw [hf] at e1; cases e1
  | some fn =>
    rw [hf] at e2
    have e2 : fn.key (ch! "threshold") = _ := e2
    have : severityFilter fn = .ok fun s => if t ≤ s then .neutral else .deny := by
      unfold severityFilter Console.severityFromConfig
      rw [e2, sint_some h3]
      rfl
    have hr : filters.filter (ch! "severity") = .ok severityFilter := rfl
    simp only [hr, this]

/-- The types of sinks that are registered. -/
def sinkTypes : List Str :=
  [ch! "asynchronous", ch! "console", ch! "file", ch! "null", ch! "tcp", ch! "udp", ch! "syslog"]

theorem typed_known {v : Json} {s : Sink} (h : Describes v s) : ∃ t ∈ sinkTypes, Typed v t := by
  cases h with
  | null h => exact ⟨_, by decide, h⟩
  | file h => exact ⟨_, by decide, h⟩
  | tcp h => exact ⟨_, by decide, h⟩
  | udp h => exact ⟨_, by decide, h⟩
  | syslog h => exact ⟨_, by decide, h⟩
  | syslogPlain h => exact ⟨_, by decide, h⟩
  | console h => exact ⟨_, by decide, h⟩
  | consoleAbove h => exact ⟨_, by decide, h⟩
  | dropping h => exact ⟨_, by decide, h⟩
  | waiting h => exact ⟨_, by decide, h⟩

theorem typed_trans {v w : Json} {k : Str} {p : List Step} {x : Json} (h1 : HasAt v [.key k] w) (h2 : HasAt w p x) :
    HasAt v (.key k :: p) x := by
  cases h1 with
  | key hb h =>
    cases h
    exact .key hb h2

theorem sinkTypes_nul {t : Str} (h : t ∈ sinkTypes) : '\x00' ∉ t := by
  simp only [sinkTypes, List.mem_cons, List.not_mem_nil, or_false] at h
  rcases h with rfl | rfl | rfl | rfl | rfl | rfl | rfl <;> decide

theorem typed_unique {v : Json} {t u : Str} (h1 : Typed v t) (h2 : Typed v u) : t = u := by
  have := Config.C33_at_most_one v _ (plain1 (by decide)) _ _ h1 h2
  injection this

theorem async_ok {n : Node} {w : Json} {k : Nat} {s : Sink} {name : Str} {policy : Async.Policy} {t : Str}
    (h1 : HasAt n.value [.key (ch! "sink")] w) (ht : t ∈ sinkTypes) (h2 : Typed w t)
    (hs : ∀ m : Node, m.value = w → sink t m = .ok s)
    (h3 : HasAt n.value [.key (ch! "factor")] (.int k)) (h4 : 2 ≤ k) (h5 : k ≤ 20)
    (h6 : HasAt n.value [.key (ch! "overflow")] (.str name)) (h7 : '\x00' ∉ name)
    (h8 : Async.create name = .ok policy) : sink (ch! "asynchronous") n = .ok (.asynchronous ⟨2 ^ k, policy⟩ s) := by
  have e0 := key2_some (by decide) (by decide) (typed_trans h1 h2)
  rw [sink, if_pos rfl, e0, str_some rfl (sinkTypes_nul ht)]
  simp only
  rw [if_pos (show t ∈ [_, _, _, _, _, _, _] from ht), key_some (by decide) h3, uint_some (by omega) (by omega)]
  simp only
  rw [key_some (by decide) h6, str_some rfl h7]
  simp only [h8]
  split
  · rename_i hn
    rw [key_some (by decide) h1] at hn
    cases hn
  · rename_i m hm
    rw [key_some (by decide) h1] at hm
    cases hm
    rw [hs _ rfl]
    simp only
    have : Async.Sink.make' (k : Int).toNat policy = .ok ⟨2 ^ k, policy⟩ := by
      simp only [Async.Sink.make', Async.exp2, Int.toNat_natCast]
      rw [if_neg (by omega)]
      rfl
    rw [this]

theorem sink_ok {v : Json} {s : Sink} (h : Describes v s) :
    ∀ t n, Typed v t → n.value = v → sink t n = .ok s := by
  induction h with
  | null h =>
    rintro t n ht rfl
    rw [typed_unique ht h, sink, if_neg (by decide), if_neg (by decide), if_neg (by decide), if_pos rfl]; rfl
  | file h a b c d =>
    rintro t n ht rfl
    rw [typed_unique ht h, sink, if_neg (by decide), if_neg (by decide), if_pos rfl, fileSink, file_ok a b c d]
  | tcp h a b c d =>
    rintro t n ht rfl
    rw [typed_unique ht h, sink, if_neg (by decide), if_neg (by decide), if_neg (by decide), if_neg (by decide),
      if_pos rfl, socketSink, socket_ok a b c d]
  | udp h a b c d =>
    rintro t n ht rfl
    rw [typed_unique ht h, sink, if_neg (by decide), if_neg (by decide), if_neg (by decide), if_neg (by decide),
      if_neg (by decide), if_pos rfl, socketSink, socket_ok a b c d]
  | syslog h a b =>
    rintro t n ht rfl
    rw [typed_unique ht h, sink, if_neg (by decide), if_neg (by decide), if_neg (by decide), if_neg (by decide),
      if_neg (by decide), if_neg (by decide), if_pos rfl, syslogSink, syslog_ok a b]
  | syslogPlain h a =>
    rintro t n ht rfl
    rw [typed_unique ht h, sink, if_neg (by decide), if_neg (by decide), if_neg (by decide), if_neg (by decide),
      if_neg (by decide), if_neg (by decide), if_pos rfl, syslogSink, Syslog.fromConfig, key_none (by decide) a]
  | console h a =>
    rintro t n ht rfl
    rw [typed_unique ht h, sink, if_neg (by decide), if_pos rfl, consoleSink, Console.fromConfig,
      key2_none (by decide) (by decide) a]
    rfl
  | consoleAbove h a b c =>
    rintro t n ht rfl
    rw [typed_unique ht h, sink, if_neg (by decide), if_pos rfl, consoleSink, console_ok a b c]
    rfl
  | dropping h a hw b c d e ih =>
    rintro t n ht rfl
    obtain ⟨u, hu, hwu⟩ := typed_known hw
    rw [typed_unique ht h]
    exact async_ok a hu hwu (fun m hm => ih u m hwu hm) b c d e (by decide) rfl
  | waiting h a hw b c d e ih =>
    rintro t n ht rfl
    obtain ⟨u, hu, hwu⟩ := typed_known hw
    rw [typed_unique ht h]
    exact async_ok a hu hwu (fun m hm => ih u m hwu hm) b c d e (by decide) rfl

/-- What the registry answers for a type of sink. -/
theorem configured_sink (env : Rec.Env) (cd : Str → Option Nat) (t : Str) :
    (∃ f, (configured env cd).sink t = .ok f ∧ ∀ n, f n = sink t n)
    ∨ (configured env cd).sink t = .error (.notRegistered .sink t) ∧ ∀ n, sink t n = .error (.notRegistered .sink t) := by
  have hs : (configured env cd).sinks = [(ch! "asynchronous", sink (ch! "asynchronous")), (ch! "console", consoleSink),
      (ch! "file", fileSink), (ch! "null", nullSink), (ch! "tcp", socketSink .tcp), (ch! "udp", socketSink .udp),
      (ch! "syslog", syslogSink)] := rfl
  unfold Registry.Registry.sink Registry.get
  rw [hs]
  by_cases h1 : t = ch! "asynchronous"
  · subst h1; exact .inl ⟨_, rfl, fun _ => rfl⟩
  by_cases h2 : t = ch! "console"
  · subst h2; exact .inl ⟨_, rfl, fun _ => by rw [sink, if_neg h1, if_pos rfl]⟩
  by_cases h3 : t = ch! "file"
  · subst h3; exact .inl ⟨_, rfl, fun _ => by rw [sink, if_neg h1, if_neg h2, if_pos rfl]⟩
  by_cases h4 : t = ch! "null"
  · subst h4; exact .inl ⟨_, rfl, fun _ => by rw [sink, if_neg h1, if_neg h2, if_neg h3, if_pos rfl]⟩
  by_cases h5 : t = ch! "tcp"
  · subst h5; exact .inl ⟨_, rfl, fun _ => by rw [sink, if_neg h1, if_neg h2, if_neg h3, if_neg h4, if_pos rfl]⟩
  by_cases h6 : t = ch! "udp"
  · subst h6
    exact .inl ⟨_, rfl, fun _ => by rw [sink, if_neg h1, if_neg h2, if_neg h3, if_neg h4, if_neg h5, if_pos rfl]⟩
  by_cases h7 : t = ch! "syslog"
  · subst h7
    exact .inl ⟨_, rfl, fun _ => by
      rw [sink, if_neg h1, if_neg h2, if_neg h3, if_neg h4, if_neg h5, if_neg h6, if_pos rfl]⟩
  right
  constructor
  · simp only [Registry.find, if_neg (Ne.symm h1), if_neg (Ne.symm h2), if_neg (Ne.symm h3), if_neg (Ne.symm h4),
      if_neg (Ne.symm h5), if_neg (Ne.symm h6), if_neg (Ne.symm h7)]
  · intro n
    rw [sink, if_neg h1, if_neg h2, if_neg h3, if_neg h4, if_neg h5, if_neg h6, if_neg h7]

theorem makeSink_eq (env : Rec.Env) (cd : Str → Option Nat) {t : Str} {n : Node}
    (h : (n.key (ch! "type")).toString = .ok (some t)) : (configured env cd).makeSink n = sink t n := by
  unfold Registry.Registry.makeSink
  rw [h]
  rcases configured_sink env cd t with ⟨f, e, hf⟩ | ⟨e, hf⟩
  · simp only [e, hf]
  · simp only [e, hf]

/-! ## C64 -/

variable (env : Rec.Env) (cd : Str → Option Nat)

/-- **C64, sinks.** A configured registry makes the sink that an entry describes, however deeply asynchronous sinks are
nested. -/
theorem C64_sink (n : Node) (s : Sink) (h : Describes n.value s) : (configured env cd).makeSink n = .ok s := by
  obtain ⟨t, ht, htn⟩ := typed_known h
  rw [makeSink_eq env cd (type_of htn (sinkTypes_nul ht))]
  exact sink_ok h t n htn rfl

/-- **C64, the asynchronous sink asks the same registry.** The factory of the asynchronous sink makes its wrapped sink
as the registry makes any sink. -/
theorem C64_same_registry (n m : Node) (factor : Nat) (policy : Async.Policy) (s : Sink)
    (h : sink (ch! "asynchronous") n = .ok (.asynchronous ⟨factor, policy⟩ s)) (hm : n.key (ch! "sink") = some m) :
    (configured env cd).makeSink m = .ok s := by
  rw [sink, if_pos rfl] at h
  rw [hm] at h
  split at h
  · cases h
  · cases h
  · rename_i wrapped hw
    have hw : (m.key (ch! "type")).toString = .ok (some wrapped) := hw
    rw [makeSink_eq env cd hw]
    split at h
    · split at h
      · cases h
      · cases h
      · split at h
        · cases h
        · cases h
        · split at h
          · cases h
          · split at h
            · cases h
            · rename_i m' hm'
              cases hm'
              split at h
              · cases h
              · rename_i s' hs'
                split at h
                · cases h
                · cases h; exact hs'
    · cases h

/-- **C64, unknown sinks.** An entry of any other type is rejected, by name. -/
theorem C64_unknown_sink (n : Node) (t : Str) (ht : Typed n.value t) (hnul : '\x00' ∉ t)
    (h : t ∉ [ch! "asynchronous", ch! "console", ch! "file", ch! "null", ch! "tcp", ch! "udp", ch! "syslog"]) :
    (configured env cd).makeSink n = .error (.notRegistered .sink t) := by
  rw [makeSink_eq env cd (type_of ht hnul)]
  simp only [List.mem_cons, List.not_mem_nil, or_false, not_or] at h
  obtain ⟨h1, h2, h3, h4, h5, h6, h7⟩ := h
  rw [sink, if_neg h1, if_neg h2, if_neg h3, if_neg h4, if_neg h5, if_neg h6, if_neg h7]

/-- Also below an asynchronous sink. -/
theorem C64_unknown_wrapped (n : Node) (t : Str) (ha : Typed n.value (ch! "asynchronous"))
    (ht : HasAt n.value [.key (ch! "sink"), .key (ch! "type")] (.str t)) (hnul : '\x00' ∉ t)
    (h : t ∉ [ch! "asynchronous", ch! "console", ch! "file", ch! "null", ch! "tcp", ch! "udp", ch! "syslog"]) :
    (configured env cd).makeSink n = .error (.notRegistered .sink t) := by
  rw [makeSink_eq env cd (type_of ha (by decide)), sink, if_pos rfl, key2_some (by decide) (by decide) ht, str_some rfl hnul]
  simp only
  rw [if_neg h]

/-- **C64 fails for incomplete asynchronous sinks.** Without a factor, or with one but without an overflow policy, an
asynchronous sink is neither made nor rejected: an empty optional is read. -/
theorem C64_fails_incomplete (n : Node) (t : Str) (ha : Typed n.value (ch! "asynchronous"))
    (ht : HasAt n.value [.key (ch! "sink"), .key (ch! "type")] (.str t))
    (h : t ∈ [ch! "asynchronous", ch! "console", ch! "file", ch! "null", ch! "tcp", ch! "udp", ch! "syslog"])
    (hf : (∀ w, ¬ HasAt n.value [.key (ch! "factor")] w)
      ∨ (∃ k : Nat, HasAt n.value [.key (ch! "factor")] (.int k) ∧ k < 2 ^ 64)
        ∧ ∀ w, ¬ HasAt n.value [.key (ch! "overflow")] w) :
    (configured env cd).makeSink n = .error (.ub .nullDeref) := by
  rw [makeSink_eq env cd (type_of ha (by decide)), sink, if_pos rfl, key2_some (by decide) (by decide) ht,
    str_some rfl (sinkTypes_nul h)]
  simp only
  rw [if_pos h]
  rcases hf with hf | ⟨⟨k, hk, hlt⟩, ho⟩
  · rw [key_none (by decide) hf]
    rfl
  · rw [key_some (by decide) hk, uint_some (by omega) (by omega), key_none (by decide) ho]
    rfl

example : ∃ n : Node, Typed n.value (ch! "asynchronous")
    ∧ HasAt n.value [.key (ch! "sink"), .key (ch! "type")] (.str (ch! "null"))
    ∧ ∀ w, ¬ HasAt n.value [.key (ch! "factor")] w :=
  ⟨⟨.obj [(ch! "type", .str (ch! "asynchronous")), (ch! "sink", .obj [(ch! "type", .str (ch! "null"))])], []⟩,
    .key (before := []) (by simp) (.here _),
    .key (before := [_]) (by decide) (.key (before := []) (by simp) (.here _)), absent (by decide)⟩

theorem formatter_ok {fv : Json} {fmt : Formatter} (h : DescribesFormatter env cd fv fmt) (cursor : Str) :
    ∃ t f, Typed fv t ∧ '\x00' ∉ t ∧ (configured env cd).formatter t = .ok f ∧ f ⟨fv, cursor⟩ = .ok fmt := by
  cases h with
  | json h hf =>
    refine ⟨_, jsonFormatter, h, by decide, rfl, ?_⟩
    unfold jsonFormatter; rw [hf]
  | string h hf =>
    refine ⟨_, stringFormatter env cd, h, by decide, rfl, ?_⟩
    unfold stringFormatter; rw [hf]
  | tskv h hf =>
    refine ⟨_, tskvFormatter, h, by decide, rfl, ?_⟩
    unfold tskvFormatter; rw [hf]

theorem children_sinks (cursor : Str) (i : Nat) {svs : List Json} {sinks : List Sink} (h : Both Describes svs sinks) :
    Registry.mapM (configured env cd).makeSink (Config.children cursor i svs) = .ok sinks := by
  induction h generalizing i with
  | nil => rfl
  | cons h1 _ ih =>
    simp only [Config.children, Registry.mapM]
    rw [C64_sink env cd ⟨_, _⟩ _ h1]
    simp only
    rw [ih]

/-- **C64, handlers.** An entry that describes a formatter and sinks gives the blocking handler with them, in order; it
need not name its type. -/
theorem C64_handler (n : Node) (fmt : Formatter) (sinks : List Sink) (h : DescribesHandler env cd n.value fmt sinks) :
    (configured env cd).makeHandler n = .ok (.blocking fmt sinks) := by
  obtain ⟨ht, ⟨fv, hfv, hfmt⟩, hs⟩ := h
  have hb : (configured env cd).makeBlocking n = .ok (.blocking fmt sinks) := by
    obtain ⟨t, f, h1, h2, h3, h4⟩ := formatter_ok env cd hfmt (n.cursor ++ Config.shown [.key (ch! "formatter")])
    unfold Registry.Registry.makeBlocking
    rw [key2_some (by decide) (by decide) (typed_trans hfv h1), str_some rfl h2]
    simp only [h3]
    rw [key_some (by decide) hfv]
    simp only [h4]
    rcases hs with ⟨svs, hsv, hd⟩ | ⟨hno, rfl⟩
    · rw [key_some (by decide) hsv]
      simp only [Config.Opt.each, Node.each]
      rw [children_sinks env cd _ _ hd]
    · rw [key_none (by decide) hno]
      rfl
  have hr : (configured env cd).handler (ch! "blocking") = .ok .blocking := rfl
  unfold Registry.Registry.makeHandler
  rcases ht with ht | ht
  · rw [type_of ht (by decide)]
    simp only [hr, hb]
  · rw [key_none (by decide) ht]
    simp only [Config.Opt.toString, Config.Opt.to, hr, hb]

/-- **C64, no other handlers.** An entry that names another type of handler is rejected; so the development handler
cannot be configured. -/
theorem C64_unknown_handler (n : Node) (t : Str) (ht : Typed n.value t) (hnul : '\x00' ∉ t) (h : t ≠ ch! "blocking") :
    (configured env cd).makeHandler n = .error (.notRegistered .handler t) := by
  unfold Registry.Registry.makeHandler
  rw [type_of ht hnul]
  have : (configured env cd).handler t = .error (.notRegistered .handler t) := by
    have hh : (configured env cd).handlers = [(ch! "blocking", .blocking)] := rfl
    unfold Registry.Registry.handler Registry.get
    rw [hh]
    simp only [Registry.find, if_neg (Ne.symm h)]
  simp only [this]

/-- **C64, formatters.** A handler whose formatter is of any other type than `json`, `string` and `tskv` is rejected. -/
theorem C64_unknown_formatter (n : Node) (t : Str)
    (ht : HasAt n.value [.key (ch! "formatter"), .key (ch! "type")] (.str t)) (hnul : '\x00' ∉ t)
    (hb : Typed n.value (ch! "blocking") ∨ ∀ w, ¬ HasAt n.value [.key (ch! "type")] w)
    (h : t ∉ [ch! "json", ch! "string", ch! "tskv"]) :
    (configured env cd).makeHandler n = .error (.notRegistered .formatter t) := by
  simp only [List.mem_cons, List.not_mem_nil, or_false, not_or] at h
  have hf : (configured env cd).formatter t = .error (.notRegistered .formatter t) := by
    have hh : (configured env cd).formatters
        = [(ch! "json", jsonFormatter), (ch! "string", stringFormatter env cd), (ch! "tskv", tskvFormatter)] := rfl
    unfold Registry.Registry.formatter Registry.get
    rw [hh]
    simp only [Registry.find, if_neg (Ne.symm h.1), if_neg (Ne.symm h.2.1), if_neg (Ne.symm h.2.2)]
  have hm : (configured env cd).makeBlocking n = .error (.notRegistered .formatter t) := by
    unfold Registry.Registry.makeBlocking
    rw [key2_some (by decide) (by decide) ht, str_some rfl hnul]
    simp only [hf]
  have hr : (configured env cd).handler (ch! "blocking") = .ok .blocking := rfl
  unfold Registry.Registry.makeHandler
  rcases hb with hb | hb
  · rw [type_of hb (by decide)]
    simp only [hr, hm]
  · rw [key_none (by decide) hb]
    simp only [Config.Opt.toString, Config.Opt.to, hr, hm]

/-- **C64, filters.** The registry has the filter `severity`, which denies what is below its threshold and leaves the rest
to others, and no other filter. -/
theorem C64_filter (t : Str) :
    (t = ch! "severity" → ∃ f, (configured env cd).filter t = .ok f
      ∧ ∀ (n : Node) (z : Int), HasAt n.value [.key (ch! "threshold")] (.int z) → -2 ^ 63 ≤ z → z < 2 ^ 63 →
        f n = .ok fun severity => if z ≤ severity then .neutral else .deny)
    ∧ (t ≠ ch! "severity" → (configured env cd).filter t = .error (.notRegistered .filter t)) := by
  constructor
  · rintro rfl
    refine ⟨severityFilter, rfl, fun n z hz h1 h2 => ?_⟩
    unfold severityFilter Console.severityFromConfig
    rw [key_some (by decide) hz, sint_some ⟨h1, h2⟩]
    rfl
  · intro h
    have hh : (configured env cd).filters = [(ch! "severity", severityFilter)] := rfl
    unfold Registry.Registry.filter Registry.get
    rw [hh]
    simp only [Registry.find, if_neg (Ne.symm h)]

example : ∃ n : Node, HasAt n.value [.key (ch! "formatter"), .key (ch! "type")] (.str (ch! "xml"))
    ∧ ch! "xml" ∉ [ch! "json", ch! "string", ch! "tskv"] ∧ ∀ w, ¬ HasAt n.value [.key (ch! "type")] w :=
  ⟨⟨.obj [(ch! "formatter", .obj [(ch! "type", .str (ch! "xml"))])], []⟩,
    .key (before := []) (by simp) (.key (before := []) (by simp) (.here _)), by decide, absent (by decide)⟩

theorem children_handlers (cursor : Str) (i : Nat) {hvs : List Json} {hs : List (Formatter × List Sink)}
    (h : Both (fun v p => DescribesHandler env cd v p.1 p.2) hvs hs) :
    Registry.mapM (configured env cd).makeHandler (Config.children cursor i hvs)
      = .ok (hs.map fun p => .blocking p.1 p.2) := by
  induction h generalizing i with
  | nil => rfl
  | cons h1 _ ih =>
    simp only [Config.children, Registry.mapM]
    rw [C64_handler env cd ⟨_, _⟩ _ _ h1]
    simp only
    rw [ih]
    rfl

/-- **C64, loggers.** A document with an array of described handlers under the name of a logger builds the logger with
exactly these handlers, in order. -/
theorem C64_build (doc : Json) (name : Str) (hname : '\x00' ∉ name) (hvs : List Json)
    (hs : List (Formatter × List Sink)) (hd : HasAt doc [.key name] (.arr hvs))
    (h : Both (fun v p => DescribesHandler env cd v p.1 p.2) hvs hs) :
    (configured env cd).build doc name = .ok (hs.map fun p => .blocking p.1 p.2) := by
  unfold Registry.Registry.build
  have := key_some (n := Node.root doc) hname hd
  rw [this]
  simp only [Config.Opt.each, Node.each]
  exact children_handlers env cd _ _ h

/-- A file sink in an asynchronous one in another one. -/
example : Describes
    (.obj [(ch! "type", .str (ch! "asynchronous")), (ch! "factor", .int 5), (ch! "overflow", .str (ch! "wait")),
      (ch! "sink", .obj [(ch! "overflow", .str (ch! "drop")), (ch! "factor", .int 20),
        (ch! "sink", .obj [(ch! "type", .str (ch! "file")), (ch! "flush", .int 3), (ch! "path", .str (ch! "/tmp/log"))]),
        (ch! "type", .str (ch! "asynchronous"))])])
    (.asynchronous ⟨32, .wait⟩ (.asynchronous ⟨1048576, .drop⟩
      (.file (ch! "/tmp/log") (File.Sink.init .null (.repeat 3))))) := by
  refine .waiting (k := 5) (w := .obj [(ch! "overflow", .str (ch! "drop")), (ch! "factor", .int 20),
      (ch! "sink", .obj [(ch! "type", .str (ch! "file")), (ch! "flush", .int 3), (ch! "path", .str (ch! "/tmp/log"))]),
      (ch! "type", .str (ch! "asynchronous"))])
    (.key (before := []) (by simp) (.here _))
    (.key (before := [(ch! "type", .str (ch! "asynchronous")), (ch! "factor", .int 5),
      (ch! "overflow", .str (ch! "wait"))]) (by decide) (.here _)) ?_
    (.key (before := [(ch! "type", .str (ch! "asynchronous"))]) (by decide) (.here _)) (by decide) (by decide)
    (.key (before := [(ch! "type", .str (ch! "asynchronous")), (ch! "factor", .int 5)]) (by decide) (.here _))
  refine .dropping (k := 20) (w := .obj [(ch! "type", .str (ch! "file")), (ch! "flush", .int 3),
      (ch! "path", .str (ch! "/tmp/log"))])
    (.key (before := [(ch! "overflow", .str (ch! "drop")), (ch! "factor", .int 20), (ch! "sink", .obj [
      (ch! "type", .str (ch! "file")), (ch! "flush", .int 3), (ch! "path", .str (ch! "/tmp/log"))])]) (by decide) (.here _))
    (.key (before := [(ch! "overflow", .str (ch! "drop")), (ch! "factor", .int 20)]) (by decide) (.here _)) ?_
    (.key (before := [(ch! "overflow", .str (ch! "drop"))]) (by decide) (.here _)) (by decide) (by decide)
    (.key (before := []) (by simp) (.here _))
  refine .file (.key (before := []) (by simp) (.here _))
    (.key (before := [(ch! "type", .str (ch! "file")), (ch! "flush", .int 3)]) (by decide) (.here _)) (by decide)
    (.events (z := 3) (.key (before := [(ch! "type", .str (ch! "file"))]) (by decide) (.here _)) (by decide) (by decide))
    (.absent (absent (by decide)))

/-- A handler with a formatter and a sink. -/
example : DescribesHandler env cd
    (.obj [(ch! "formatter", .obj [(ch! "type", .str (ch! "tskv"))]),
      (ch! "sinks", .arr [.obj [(ch! "type", .str (ch! "null"))]])]) (.tskv Tskv.Data.init) [.null] := by
  refine ⟨.inr (absent (by decide)), ⟨_, .key (before := []) (by simp) (.here _),
    .tskv (.key (before := []) (by simp) (.here _)) fun _ => rfl⟩,
    .inl ⟨_, .key (before := [_]) (by decide) (.here _), .cons (.null (.key (before := []) (by simp) (.here _))) .nil⟩⟩

end Blackhole.Essentials
