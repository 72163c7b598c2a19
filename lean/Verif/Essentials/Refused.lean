import Verif.Essentials.Props

/-! # C64: what a factory refuses, the registry refuses -/

namespace Blackhole.Essentials
open Config (Node Opt Json HasAt)
open Registry (Error)

variable (env : Rec.Env) (cd : Str → Option Nat)

/-- **C64, nothing else is made.** From an entry of a type, the registry makes a sink if and only if the factory of this type
makes one from it, and this one. What the factories make is in C36, C39, C46 and C48. -/
theorem C64_only_sink (n : Node) (s : Sink) :
    (Typed n.value (ch! "syslog") → ((configured env cd).makeSink n = .ok s ↔ ∃ ps, Syslog.fromConfig n = .ok ps ∧ s = .syslog ps)) ∧
    (Typed n.value (ch! "file") →
      ((configured env cd).makeSink n = .ok s ↔ ∃ path f, File.fromConfig n = .ok (path, f) ∧ s = .file path f)) ∧
    (Typed n.value (ch! "tcp") →
      ((configured env cd).makeSink n = .ok s ↔ ∃ host port, Socket.fromConfig n = .ok (host, port) ∧ s = .tcp host port)) ∧
    (Typed n.value (ch! "udp") →
      ((configured env cd).makeSink n = .ok s ↔ ∃ host port, Socket.fromConfig n = .ok (host, port) ∧ s = .udp host port)) ∧
    (Typed n.value (ch! "console") →
      ((configured env cd).makeSink n = .ok s ↔ ∃ c, Console.fromConfig filters n = .ok c ∧ s = .console c)) := by
  refine ⟨fun h => ?_, fun h => ?_, fun h => ?_, fun h => ?_, fun h => ?_⟩ <;>
    rw [makeSink_eq env cd (type_of h (by decide)), sink]
  · simp only [show ¬ (ch! "syslog" = ch! "asynchronous") by decide, show ¬ (ch! "syslog" = ch! "console") by decide,
      show ¬ (ch! "syslog" = ch! "file") by decide, show ¬ (ch! "syslog" = ch! "null") by decide,
      show ¬ (ch! "syslog" = ch! "tcp") by decide, show ¬ (ch! "syslog" = ch! "udp") by decide, if_false, if_true, syslogSink]
    split
    · rename_i ps e; simp [e, eq_comm]
    · rename_i e; simp [e]
  · simp only [show ¬ (ch! "file" = ch! "asynchronous") by decide, show ¬ (ch! "file" = ch! "console") by decide, if_false, if_true,
      fileSink]
    split
    · rename_i p f e
      simp only [e, Except.ok.injEq, Prod.mk.injEq]
      exact ⟨fun h => ⟨p, f, ⟨rfl, rfl⟩, h.symm⟩, by rintro ⟨_, _, ⟨rfl, rfl⟩, rfl⟩; rfl⟩
    · rename_i e; simp [e]
    · rename_i e; simp [e]
  · simp only [show ¬ (ch! "tcp" = ch! "asynchronous") by decide, show ¬ (ch! "tcp" = ch! "console") by decide,
      show ¬ (ch! "tcp" = ch! "file") by decide, show ¬ (ch! "tcp" = ch! "null") by decide, if_false, if_true, socketSink]
    split
    · rename_i p f e
      simp only [e, Except.ok.injEq, Prod.mk.injEq]
      exact ⟨fun h => ⟨p, f, ⟨rfl, rfl⟩, h.symm⟩, by rintro ⟨_, _, ⟨rfl, rfl⟩, rfl⟩; rfl⟩
    · rename_i e; simp [e]
    · rename_i e; simp [e]
  · simp only [show ¬ (ch! "udp" = ch! "asynchronous") by decide, show ¬ (ch! "udp" = ch! "console") by decide,
      show ¬ (ch! "udp" = ch! "file") by decide, show ¬ (ch! "udp" = ch! "null") by decide,
      show ¬ (ch! "udp" = ch! "tcp") by decide, if_false, if_true, socketSink]
    split
    · rename_i p f e
      simp only [e, Except.ok.injEq, Prod.mk.injEq]
      exact ⟨fun h => ⟨p, f, ⟨rfl, rfl⟩, h.symm⟩, by rintro ⟨_, _, ⟨rfl, rfl⟩, rfl⟩; rfl⟩
    · rename_i e; simp [e]
    · rename_i e; simp [e]
  · simp only [show ¬ (ch! "console" = ch! "asynchronous") by decide, if_false, if_true, consoleSink]
    cases Console.fromConfig filters n with
    | ok c => simp [Except.map, eq_comm]
    | error e => simp [Except.map]

/-- **C64, wrong types.** If a member of an entry has a wrong type, the exception of the factory that says so is the one that
the registry throws. -/
theorem C64_mismatch_sink (n : Node) (e : Config.Mismatch) :
    (Typed n.value (ch! "syslog") → Syslog.fromConfig n = .error e → (configured env cd).makeSink n = .error (.mismatch e)) ∧
    (Typed n.value (ch! "file") → File.fromConfig n = .error (.mismatch e) → (configured env cd).makeSink n = .error (.mismatch e)) ∧
    (Typed n.value (ch! "tcp") → Socket.fromConfig n = .error (.mismatch e) → (configured env cd).makeSink n = .error (.mismatch e)) ∧
    (Typed n.value (ch! "udp") → Socket.fromConfig n = .error (.mismatch e) → (configured env cd).makeSink n = .error (.mismatch e)) := by
  refine ⟨fun h => ?_, fun h => ?_, fun h => ?_, fun h => ?_⟩ <;> intro he <;>
    rw [makeSink_eq env cd (type_of h (by decide)), sink]
  · simp [syslogSink, he]
  · simp [fileSink, he]
  · simp [socketSink, he]
  · simp [socketSink, he]

/-- **C64, formatters.** If the factory of its formatter refuses, a handler is not made, and wrong types are reported as such. -/
theorem C64_refused_formatter (n m : Node) (hm : n.key (ch! "formatter") = some m)
    (hb : Typed n.value (ch! "blocking") ∨ ∀ w, ¬ HasAt n.value [.key (ch! "type")] w) :
    (Typed m.value (ch! "json") → ∀ e, Json.fromConfig m = .error (.mismatch e) →
      (configured env cd).makeHandler n = .error (.mismatch e)) ∧
    (Typed m.value (ch! "tskv") → ∀ e, Tskv.fromConfig m = .error e →
      (configured env cd).makeHandler n = .error (.mismatch e)) ∧
    (Typed m.value (ch! "string") → ∀ e, StringFmt.Formatter.fromConfig env cd m = .error (.mismatch e) →
      (configured env cd).makeHandler n = .error (.mismatch e)) ∧
    (Typed m.value (ch! "string") → ∀ e, StringFmt.Formatter.fromConfig env cd m = .error (.pattern e) →
      ∀ h, (configured env cd).makeHandler n ≠ .ok h) := by
  have hr : (configured env cd).handler (ch! "blocking") = .ok .blocking := rfl
  have reduce : (configured env cd).makeHandler n = (configured env cd).makeBlocking n := by
    unfold Registry.Registry.makeHandler
    rcases hb with hb | hb
    · rw [type_of hb (by decide)]
      simp only [hr]
    · rw [key_none (by decide) hb]
      simp only [Config.Opt.toString, Config.Opt.to, hr]
  have blocking : ∀ {t f}, Typed m.value t → '\x00' ∉ t → (configured env cd).formatter t = .ok f → ∀ e, f m = .error e →
      (configured env cd).makeBlocking n = .error e := by
    intro t f h hz hf e he
    unfold Registry.Registry.makeBlocking
    have := type_of h hz
    rw [hm]
    simp only [Config.Opt.key, this, hf, he]
  rw [reduce]
  refine ⟨fun h e he => ?_, fun h e he => ?_, fun h e he => ?_, fun h e he x hx => ?_⟩
  · exact blocking h (by decide) (f := jsonFormatter) rfl _ (by simp [jsonFormatter, he])
  · exact blocking h (by decide) (f := tskvFormatter) rfl _ (by simp [tskvFormatter, he])
  · exact blocking h (by decide) (f := stringFormatter env cd) rfl _ (by simp [stringFormatter, he])
  · rw [blocking h (by decide) (f := stringFormatter env cd) rfl (.factory 0) (by simp [stringFormatter, he])] at hx
    cases hx

/-! A system log sink whose priorities are no array, and a handler whose formatter removes something that is no array. -/

example : ∃ e, (configured env cd).makeSink
    ⟨.obj [(ch! "type", .str (ch! "syslog")), (ch! "priorities", .bool true)], []⟩ = .error (.mismatch e) :=
  ⟨_, (C64_mismatch_sink env cd _ _).1 (.key (before := []) (by simp) (.here _)) rfl⟩

example : ∃ e, (configured env cd).makeHandler
    ⟨.obj [(ch! "formatter", .obj [(ch! "type", .str (ch! "tskv")), (ch! "remove", .bool true)])], []⟩ = .error (.mismatch e) :=
  ⟨_, (C64_refused_formatter env cd _ ⟨.obj [(ch! "type", .str (ch! "tskv")), (ch! "remove", .bool true)], _⟩ rfl
    (.inr (absent (by decide)))).2.1 (.key (before := []) (by simp) (.here _)) _ rfl⟩

end Blackhole.Essentials
