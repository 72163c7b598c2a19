import Verif.Tskv.Lemmas

/-! # C25, C26, C27: TSKV lines -/

namespace Blackhole.Tskv

open Rec StringFmt

/-! ## C25 -/

/-- **C25.** Unescaping inverts escaping, for every text. -/
theorem C25_unescape (s : Str) : unescape (escapeVal s) = some s := unescape_escape s

/-- **C25.** Escaped values contain no tab, newline, carriage return or NUL. -/
theorem C25_clean (s : Str) : ∀ c ∈ escapeVal s, c ≠ '\t' ∧ c ≠ '\n' ∧ c ≠ '\r' ∧ c ≠ '\x00' := escapeVal_clean s

example : escapeVal (ch! "a\tb\\n\n=") = ch! "a\\tb\\\\n\\n=" ∧ unescape (ch! "a\\tb\\\\n\\n=") = some (ch! "a\tb\\n\n=") :=
  ⟨rfl, rfl⟩

/-! ## The line -/

theorem str_arg (fd : Fmt.Spec → Nat → Except Fmt.Err Str) (s : Str) : Fmt.writeArg fd {} (.str s ['\x00']) = .ok s := by
  cases s with
  | nil => rfl
  | cons c s => rw [(Fmt.C50_not_empty fd {} (c :: s) _ (by simp) (.inl rfl) rfl).1, pad_none]

theorem constants_ok (env : Env) (d : Data) (cs : List (Str × Str)) :
    concat (cs.map (addConstant env d)) = .ok (written d cs) := by
  induction cs with
  | nil => rfl
  | cons kv cs ih =>
    rw [List.map_cons, addConstant, addArg_eq env d _ _ (str_arg env.fd kv.2), concat, ih,
      show kv :: cs = [kv] ++ cs from rfl, written_append]

theorem times_ok {clock : Clock} {d : Data} {r : Record} {ts : List (Str × Stamp)} {fs : List (Str × Str)}
    (h : Both (TimesShow clock r) ts fs) :
    concat (ts.map (addTimestamp clock d r)) = .ok (written d (fs.map fun f => (f.1, escapeVal f.2))) := by
  induction h with
  | nil => rfl
  | @cons kv f ts fs h1 _ ih =>
    rw [List.map_cons, addTimestamp, h1.2]
    simp only [concat, ih]
    rw [List.map_cons, addView_eq, ← h1.1, ← written_append]
    rfl

theorem attributes_ok {env : Env} {d : Data} {as : List (View × Value)} {fs : List (Str × Str)}
    (h : Both (AttributeShows env) as fs) :
    concat (as.map (addAttribute env d)) = .ok (written d (fs.map fun f => (f.1, escapeVal f.2))) := by
  induction h with
  | nil => rfl
  | @cons a f as fs h1 _ ih =>
    rw [List.map_cons, addAttribute, (writeValue_shows h1.2).1]
    simp only [concat, ih]
    rw [List.map_cons, addView_eq, ← h1.1, ← written_append]
    rfl

/-- The whole line. -/
theorem format_eq {env : Env} {clock : Clock} {d : Data} {r : Record} {times attrs : List (Str × Str)}
    (hpid : env.pid < 2 ^ 64) (htid : r.tid < 2 ^ 64) (hs1 : -2 ^ 31 ≤ r.severity) (hs2 : r.severity < 2 ^ 31)
    (ht : Both (TimesShow clock r) d.timestamps times) (ha : Both (AttributeShows env) r.pack.flatten attrs) :
    format env clock d r = .ok (ch! "tskv" ++ written d (d.constants ++ times.map (fun f => (f.1, escapeVal f.2))
        ++ [(ch! "severity", decimalText r.severity), (ch! "pid", Nat.toDigits 10 env.pid)])
      ++ fieldText (ch! "tid", hexText r.tid)
      ++ written d ((ch! "message", escapeVal r.message.text) :: attrs.map fun f => (f.1, escapeVal f.2))) := by
  have hsev := addArg_eq env d (ch! "severity") (.int r.severity) (writeArg_int env.fd {} (.int hs1 hs2) (.inl rfl))
  have hp := addArg_eq env d (ch! "pid") (.ulong env.pid) (writeArg_int env.fd {} (.ulong hpid) (.inl rfl))
  rw [decimal_nat] at hp
  unfold format
  rw [hsev, hp, write_tid env htid, addView_eq]
  simp only [concat_append, constants_ok, times_ok ht, attributes_ok ha, concat, List.append_nil]
  have h1 : written d [(ch! "severity", decimalText r.severity), (ch! "pid", Nat.toDigits 10 env.pid)]
      = written d [(ch! "severity", decimalText r.severity)] ++ written d [(ch! "pid", Nat.toDigits 10 env.pid)] :=
    written_append d [_] [_]
  have h2 : written d ((ch! "message", escapeVal r.message.text) :: attrs.map fun f => (f.1, escapeVal f.2))
      = written d [(ch! "message", escapeVal r.message.text)] ++ written d (attrs.map fun f => (f.1, escapeVal f.2)) :=
    written_append d [_] _
  have h3 : fieldText (ch! "tid", hexText r.tid) = ch! "\ttid=" ++ hexText r.tid := rfl
  rw [h2, h3]
  simp only [written_append, h1, List.append_assoc]

/-- Digits are neither separators nor escapes. -/
theorem digits_plain {b : Nat} (hb : b = 10 ∨ b = 16) (n : Nat) : ∀ c ∈ Nat.toDigits b n,
    c ≠ '\t' ∧ c ≠ '\n' ∧ c ≠ '\\' := by
  have t : ∀ d : Fin 16, Nat.digitChar d.val ≠ '\t' ∧ Nat.digitChar d.val ≠ '\n' ∧ Nat.digitChar d.val ≠ '\\' := by decide
  have hb1 : 1 < b ∧ b ≤ 16 := by rcases hb with rfl | rfl <;> decide
  induction n using Nat.strongRecOn with
  | ind n ih =>
    intro c hc
    by_cases hn : n < b
    · rw [Nat.toDigits_of_lt_base hn, List.mem_singleton] at hc
      subst hc
      exact t ⟨n, by omega⟩
    · rw [Nat.toDigits_of_base_le (by omega) (by omega), List.mem_append, List.mem_singleton] at hc
      rcases hc with hc | rfl
      · exact ih (n / b) (Nat.div_lt_self (by omega) hb1.1) c hc
      · have : n % b < b := Nat.mod_lt _ (by omega)
        exact t ⟨n % b, by omega⟩

/-! ## C26 -/

theorem Both.map {α β γ δ : Type} {R : α → β → Prop} {Q : γ → δ → Prop} (f : α → γ) (g : β → δ)
    (h : ∀ a b, R a b → Q (f a) (g b)) {as : List α} {bs : List β} (hb : Both R as bs) : Both Q (as.map f) (bs.map g) := by
  induction hb with
  | nil => exact .nil
  | cons h1 _ ih => exact .cons (h _ _ h1) ih

/-- What is shown of fields with encoded values is read as what is shown of them. -/
theorem shown_reads {d : Data} (enc : Str × Str → Str) {fs : List (Str × Str)}
    (hk : ∀ kv ∈ shown d fs, KeyOk kv.1)
    (hv : ∀ f ∈ fs, f.1 ∉ d.removed → '\t' ∉ enc f ∧ '\n' ∉ enc f ∧ unescape (enc f) = some f.2) :
    Both Reads (shown d (fs.map fun f => (f.1, enc f))) (shown d fs) := by
  induction fs with
  | nil => exact .nil
  | cons f fs ih =>
    have ih' := ih (fun kv h => hk kv (by
      simp only [shown, List.mem_map, List.mem_filter] at h ⊢
      obtain ⟨a, ⟨h1, h2⟩, h3⟩ := h
      exact ⟨a, ⟨List.mem_cons_of_mem _ h1, h2⟩, h3⟩)) fun g hg => hv g (List.mem_cons_of_mem _ hg)
    by_cases hr : f.1 ∈ d.removed
    · simpa [shown, hr] using ih'
    · have h1 := hv f List.mem_cons_self hr
      have h2 := hk (shownAs d f.1, f.2) (by simp [shown, hr])
      have e1 : shown d ((f :: fs).map fun f => (f.1, enc f))
          = (shownAs d f.1, enc f) :: shown d (fs.map fun f => (f.1, enc f)) := by simp [shown, hr]
      have e2 : shown d (f :: fs) = (shownAs d f.1, f.2) :: shown d fs := by simp [shown, hr]
      rw [e1, e2]
      exact .cons ⟨rfl, h2, h1⟩ ih'

theorem shown_append (d : Data) (as bs : List (Str × Str)) : shown d (as ++ bs) = shown d as ++ shown d bs := by
  simp [shown]

/-- **C26.** If the names under which fields are written contain no tab or newline and do not end with a backslash, and
the constants contain no tab, newline or backslash, then a line is written that contains no newline, and reading it gives
the constants, the timestamps, the severity, the process, the thread, the message and the attributes, in this order, each
with exactly its value. -/
theorem C26_read_partial (env : Env) (clock : Clock) (d : Data) (r : Record) (times attrs : List (Str × Str))
    (hpid : env.pid < 2 ^ 64) (htid : r.tid < 2 ^ 64) (hs1 : -2 ^ 31 ≤ r.severity) (hs2 : r.severity < 2 ^ 31)
    (ht : Both (TimesShow clock r) d.timestamps times) (ha : Both (AttributeShows env) r.pack.flatten attrs)
    (hk : ∀ kv ∈ shown d (d.constants ++ times ++ [(ch! "severity", []), (ch! "pid", []), (ch! "message", [])] ++ attrs),
      KeyOk kv.1)
    (hc : ∀ kv ∈ d.constants, kv.1 ∉ d.removed → ConstantOk kv.2) :
    ∃ line, format env clock d r = .ok line ∧ '\n' ∉ line ∧ read line = some (
      shown d (d.constants ++ times ++ [(ch! "severity", decimalText r.severity), (ch! "pid", Nat.toDigits 10 env.pid)])
      ++ [(ch! "tid", hexText r.tid)]
      ++ shown d ((ch! "message", r.message.text) :: attrs)) := by
  simp only [shown_append, List.mem_append] at hk
  have hb1 : Both Reads (shown d d.constants) (shown d d.constants) := by
    have := shown_reads (d := d) (fun f => f.2) (fs := d.constants) (fun kv h => hk kv (.inl (.inl (.inl h)))) fun f hf hr =>
      ⟨(hc f hf hr).1, (hc f hf hr).2.1, unescape_plain (hc f hf hr).2.2⟩
    simpa using this
  have hesc : ∀ s, '\t' ∉ escapeVal s ∧ '\n' ∉ escapeVal s ∧ unescape (escapeVal s) = some s := fun s =>
    ⟨fun h => (escapeVal_clean s _ h).1 rfl, fun h => (escapeVal_clean s _ h).2.1 rfl, unescape_escape s⟩
  have hb2 : Both Reads (shown d (times.map fun f => (f.1, escapeVal f.2))) (shown d times) :=
    shown_reads (fun f => escapeVal f.2) (fun kv h => hk kv (.inl (.inl (.inr h)))) fun f _ _ => hesc f.2
  have hb5 : Both Reads (shown d (attrs.map fun f => (f.1, escapeVal f.2))) (shown d attrs) :=
    shown_reads (fun f => escapeVal f.2) (fun kv h => hk kv (.inr h)) fun f _ _ => hesc f.2
  have hplain : ∀ s : Str, (∀ c ∈ s, c ≠ '\t' ∧ c ≠ '\n' ∧ c ≠ '\\') →
      '\t' ∉ s ∧ '\n' ∉ s ∧ unescape s = some s := fun s h =>
    ⟨fun e => (h _ e).1 rfl, fun e => (h _ e).2.1 rfl, unescape_plain fun e => (h _ e).2.2 rfl⟩
  have hdec : ∀ z : Int, ∀ c ∈ decimalText z, c ≠ '\t' ∧ c ≠ '\n' ∧ c ≠ '\\' := by
    intro z c h
    unfold decimalText at h
    rw [List.mem_append] at h
    rcases h with h | h
    · split at h
      · rw [List.mem_singleton] at h; subst h; decide
      · cases h
    · exact digits_plain (.inl rfl) _ c h
  have hhex : ∀ c ∈ hexText r.tid, c ≠ '\t' ∧ c ≠ '\n' ∧ c ≠ '\\' := by
    intro c h
    unfold hexText at h
    rw [List.mem_append] at h
    rcases h with h | h
    · simp only [List.mem_cons, List.not_mem_nil, or_false] at h
      rcases h with rfl | rfl <;> decide
    · exact digits_plain (.inr rfl) _ c h
  have hkey : ∀ (name v w : Str), (name, w) ∈ [(ch! "severity", ([] : Str)), (ch! "pid", []), (ch! "message", [])] →
      ∀ kv ∈ shown d [(name, v)], KeyOk kv.1 := by
    intro name v w hm kv h
    by_cases hr : name ∈ d.removed
    · simp [shown, hr] at h
    · simp [shown, hr] at h
      subst h
      refine hk (shownAs d name, w) (.inl (.inr ?_))
      simp only [shown, List.mem_map, List.mem_filter]
      exact ⟨(name, w), ⟨hm, by simpa using hr⟩, rfl⟩
  have hb3 : Both Reads (shown d [(ch! "severity", decimalText r.severity), (ch! "pid", Nat.toDigits 10 env.pid)])
      (shown d [(ch! "severity", decimalText r.severity), (ch! "pid", Nat.toDigits 10 env.pid)]) := by
    rw [show [(ch! "severity", decimalText r.severity), (ch! "pid", Nat.toDigits 10 env.pid)]
      = [(ch! "severity", decimalText r.severity)] ++ [(ch! "pid", Nat.toDigits 10 env.pid)] from rfl, shown_append]
    refine Both.append ?_ ?_
    · have := shown_reads (d := d) (fun f => f.2) (fs := [(ch! "severity", decimalText r.severity)])
        (hkey _ _ [] (by simp)) fun f hf _ => by
          rw [List.mem_singleton] at hf; subst hf; exact hplain _ (hdec _)
      simpa using this
    · have := shown_reads (d := d) (fun f => f.2) (fs := [(ch! "pid", Nat.toDigits 10 env.pid)])
        (hkey _ _ [] (by simp)) fun f hf _ => by
          rw [List.mem_singleton] at hf; subst hf; exact hplain _ (digits_plain (.inl rfl) _)
      simpa using this
  have hb4 : Both Reads (shown d [(ch! "message", escapeVal r.message.text)]) (shown d [(ch! "message", r.message.text)]) :=
    shown_reads (fun f => escapeVal f.2) (fs := [(ch! "message", r.message.text)]) (hkey _ _ [] (by simp)) fun f hf _ => by
      rw [List.mem_singleton] at hf; subst hf; exact hesc _
  have hbt : Both Reads [(ch! "tid", hexText r.tid)] [(ch! "tid", hexText r.tid)] :=
    .cons ⟨rfl, ⟨by simp, by simp, by simp⟩, hplain _ hhex⟩ .nil
  have hall := Both.append (Both.append (Both.append (Both.append hb1 hb2) hb3) hbt) (Both.append hb4 hb5)
  have e : ch! "tskv" ++ written d (d.constants ++ times.map (fun f => (f.1, escapeVal f.2))
        ++ [(ch! "severity", decimalText r.severity), (ch! "pid", Nat.toDigits 10 env.pid)])
      ++ fieldText (ch! "tid", hexText r.tid)
      ++ written d ((ch! "message", escapeVal r.message.text) :: attrs.map fun f => (f.1, escapeVal f.2))
      = ch! "tskv" ++ ((shown d d.constants ++ shown d (times.map fun f => (f.1, escapeVal f.2))
        ++ shown d [(ch! "severity", decimalText r.severity), (ch! "pid", Nat.toDigits 10 env.pid)]
        ++ [(ch! "tid", hexText r.tid)] ++ (shown d [(ch! "message", escapeVal r.message.text)]
        ++ shown d (attrs.map fun f => (f.1, escapeVal f.2)))).map fieldText).flatten := by
    rw [show ∀ x, (ch! "message", escapeVal r.message.text) :: x = [(ch! "message", escapeVal r.message.text)] ++ x
      from fun _ => rfl]
    simp only [written, shown_append, List.map_append, List.flatten_append, List.append_assoc, List.map_cons, List.map_nil,
      List.flatten_cons, List.flatten_nil, List.append_nil]
  refine ⟨_, format_eq hpid htid hs1 hs2 ht ha, ?_, ?_⟩
  · rw [e]; exact line_no_newline hall
  · rw [e, read_fields hall]
    rw [show (ch! "message", r.message.text) :: attrs = [(ch! "message", r.message.text)] ++ attrs from rfl]
    simp only [shown_append]

/-- A record with one attribute, and a formatter that shows little else. -/
def sample (key value : Str) : Record :=
  { message := .at (ch! "m") ['\x00'], severity := 0, timestamp := 0, tid := 1
    pack := [[(.at key ['\x00'], .string (.at value ['\x00']))]] }

def bare (constants : List (Str × Str)) : Data where
  removed := [ch! "severity", ch! "pid", ch! "message"]
  renamed := []
  constants := constants
  timestamps := []

theorem sample_line (env : Env) (clock : Clock) (hpid : env.pid < 2 ^ 64) (key value : Str) (hv : '\x00' ∉ value)
    (consts : List (Str × Str)) (hk : key ∉ (bare []).removed) :
    format env clock (bare consts) (sample key value) = .ok (ch! "tskv"
      ++ written (bare consts) consts ++ ch! "\ttid=0x1"
      ++ fieldText (key, escapeVal value)) := by
  have := format_eq (env := env) (clock := clock) (d := (bare consts)) (r := sample key value)
    (times := []) (attrs := [(key, value)]) hpid (by simp [sample]) (by simp [sample]) (by simp [sample]) .nil
    (.cons ⟨rfl, .string ⟨hv, [], rfl⟩⟩ .nil)
  rw [this]
  have h1 : ∀ xs : List (Str × Str), written (bare consts)
      (xs ++ [(ch! "severity", decimalText (sample key value).severity), (ch! "pid", Nat.toDigits 10 env.pid)])
      = written (bare consts) xs := by
    intro xs
    rw [written_append]
    simp [written, shown, bare]
  have h2 : written (bare consts) ((ch! "message", escapeVal (sample key value).message.text) ::
      [(key, value)].map fun f => (f.1, escapeVal f.2)) = fieldText (key, escapeVal value) := by
    simp [bare] at hk
    simp [written, shown, bare, shownAs, lookup, hk]
  have h3 : fieldText (ch! "tid", hexText 1) = ch! "\ttid=0x1" := by decide
  rw [h1, h2]
  rw [show fieldText (ch! "tid", hexText (sample key value).tid) = ch! "\ttid=0x1" from h3, List.map_nil,
    List.append_nil]
  rfl

example (env : Env) (clock : Clock) (hpid : env.pid < 2 ^ 64) :
    ∃ line, format env clock (bare [(ch! "c", ch! "x y")]) (sample (ch! "k=") (ch! "a\tb")) = .ok line
      ∧ read line = some [(ch! "c", ch! "x y"), (ch! "tid", ch! "0x1"), (ch! "k=", ch! "a\tb")] := by
  refine ⟨_, sample_line env clock hpid _ _ (by decide) _ (by decide), rfl⟩

/-- In general it does not hold: a tab in a name begins another field, -/
theorem C26_fails_key_tab (env : Env) (clock : Clock) (hpid : env.pid < 2 ^ 64) :
    ∃ line, format env clock (bare []) (sample (ch! "a\tb") (ch! "v")) = .ok line ∧ read line = none :=
  ⟨_, sample_line env clock hpid (ch! "a\tb") (ch! "v") (by decide) [] (by decide), rfl⟩

/-- a newline in a name begins another line, -/
theorem C26_fails_key_newline (env : Env) (clock : Clock) (hpid : env.pid < 2 ^ 64) :
    ∃ line, format env clock (bare []) (sample (ch! "a\nb") (ch! "v")) = .ok line ∧ '\n' ∈ line :=
  ⟨_, sample_line env clock hpid (ch! "a\nb") (ch! "v") (by decide) [] (by decide), by decide⟩

/-- a backslash at the end of a name hides the `=` behind it, -/
theorem C26_fails_key_backslash (env : Env) (clock : Clock) (hpid : env.pid < 2 ^ 64) :
    ∃ line, format env clock (bare []) (sample (ch! "k\\") (ch! "v=w")) = .ok line
      ∧ read line = some [(ch! "tid", ch! "0x1"), (ch! "k=v", ch! "w")] :=
  ⟨_, sample_line env clock hpid (ch! "k\\") (ch! "v=w") (by decide) [] (by decide), rfl⟩

/-- and a tab in a constant begins a field that nobody asked for. -/
theorem C26_fails_constant (env : Env) (clock : Clock) (hpid : env.pid < 2 ^ 64) :
    ∃ line, format env clock (bare [(ch! "c", ch! "1\tforged=2")]) (sample (ch! "k") (ch! "v")) = .ok line
      ∧ read line = some [(ch! "c", ch! "1"), (ch! "forged", ch! "2"), (ch! "tid", ch! "0x1"), (ch! "k", ch! "v")] :=
  ⟨_, sample_line env clock hpid (ch! "k") (ch! "v") (by decide) _ (by decide), rfl⟩

/-! ## C25 in the line -/

theorem concat_mid {as bs : List (Except Exc Str)} {x line : Str} (h : concat (as ++ .ok x :: bs) = .ok line) :
    ∃ a b, line = a ++ x ++ b ∧ concat bs = .ok b := by
  rw [concat_append] at h
  cases ha : concat as with
  | error e => rw [ha] at h; cases h
  | ok a =>
    rw [ha] at h
    simp only [concat] at h
    cases hb : concat bs with
    | error e => rw [hb] at h; cases h
    | ok b => rw [hb] at h; cases h; exact ⟨a, b, by simp, rfl⟩

/-- Nothing, or the beginning of a field. -/
def Ends (s : Str) : Prop := s = [] ∨ s.head? = some '\t'

theorem addView_ends (d : Data) (name value : Str) : Ends (addView d name value) := by
  unfold addView
  split
  · exact .inl rfl
  · exact .inr rfl

theorem concat_ends {as : List (Except Exc Str)} (h : ∀ x, .ok x ∈ as → Ends x) {s : Str} (hs : concat as = .ok s) :
    Ends s := by
  induction as generalizing s with
  | nil => cases hs; exact .inl rfl
  | cons a as ih =>
    cases a with
    | error e => cases hs
    | ok x =>
      simp only [concat] at hs
      cases hb : concat as with
      | error e => rw [hb] at hs; cases hs
      | ok b =>
        rw [hb] at hs
        cases hs
        have h1 := h x List.mem_cons_self
        have h2 := ih (fun y hy => h y (List.mem_cons_of_mem _ hy)) hb
        rcases h1 with rfl | h1
        · simpa using h2
        · refine .inr ?_
          rw [List.head?_append, h1]; rfl

theorem attributes_ends (env : Env) (d : Data) (as : List (View × Value)) :
    ∀ x, .ok x ∈ as.map (addAttribute env d) → Ends x := by
  intro x hx
  rw [List.mem_map] at hx
  obtain ⟨a, _, h⟩ := hx
  unfold addAttribute at h
  cases hw : StringFmt.writeValue env (ch! "{}") a.2 with
  | error e => rw [hw] at h; cases h
  | ok s => rw [hw] at h; cases h; exact addView_ends d _ _

/-- **C25.** In every line, whatever the configuration: the message stands in a field of its own, from whose value it can
be read back by `C25_unescape`. -/
theorem C25_message (env : Env) (clock : Clock) (d : Data) (r : Record) (line : Str)
    (h : format env clock d r = .ok line) (hr : ch! "message" ∉ d.removed) :
    ∃ before after, line = before ++ fieldText (shownAs d (ch! "message"), escapeVal r.message.text) ++ after
      ∧ (after = [] ∨ after.head? = some '\t') := by
  unfold format at h
  rw [List.append_assoc _ [_] _] at h
  obtain ⟨a, b, e, hb⟩ := concat_mid h
  refine ⟨a, b, ?_, concat_ends (attributes_ends env d _) hb⟩
  rw [e, addView_eq]
  simp [written, shown, hr]

/-- **C25.** The same for attributes. -/
theorem C25_attribute (env : Env) (clock : Clock) (d : Data) (r : Record) (line : Str)
    (h : format env clock d r = .ok line) (a : View × Value) (ha : a ∈ r.pack.flatten) (s : Str) (hs : Shows env a.2 s)
    (hr : a.1.text ∉ d.removed) :
    ∃ before after, line = before ++ fieldText (shownAs d a.1.text, escapeVal s) ++ after
      ∧ (after = [] ∨ after.head? = some '\t') := by
  unfold format at h
  obtain ⟨as, bs, e⟩ := List.append_of_mem ha
  rw [e, List.map_append, List.map_cons, ← List.append_assoc] at h
  have hw : addAttribute env d a = .ok (addView d a.1.text s) := by
    rw [addAttribute, (writeValue_shows hs).1]
  rw [hw] at h
  obtain ⟨x, y, e', hb⟩ := concat_mid h
  refine ⟨x, y, ?_, concat_ends (attributes_ends env d _) hb⟩
  rw [e', addView_eq]
  simp [written, shown, hr]

example (env : Env) (clock : Clock) (hpid : env.pid < 2 ^ 64) :
    ∃ line, format env clock (bare []) (sample (ch! "k") (ch! "a\tb=\\")) = .ok line
      ∧ line = ch! "tskv\ttid=0x1\tk=a\\tb=\\\\" :=
  ⟨_, sample_line env clock hpid _ _ (by decide) [] (by decide), rfl⟩

/-! ## C27 -/

/-- **C27.** For every configuration and record: fields that are removed do not appear, and every other one appears once,
under its configured name. What is missing is the thread field, which always appears as `tid`. -/
theorem C27_fields_partial (env : Env) (clock : Clock) (d : Data) (r : Record) (times attrs : List (Str × Str))
    (hpid : env.pid < 2 ^ 64) (htid : r.tid < 2 ^ 64) (hs1 : -2 ^ 31 ≤ r.severity) (hs2 : r.severity < 2 ^ 31)
    (ht : Both (TimesShow clock r) d.timestamps times) (ha : Both (AttributeShows env) r.pack.flatten attrs) :
    format env clock d r = .ok (ch! "tskv" ++ written d (d.constants ++ times.map (fun f => (f.1, escapeVal f.2))
        ++ [(ch! "severity", decimalText r.severity), (ch! "pid", Nat.toDigits 10 env.pid)])
      ++ fieldText (ch! "tid", hexText r.tid)
      ++ written d ((ch! "message", escapeVal r.message.text) :: attrs.map fun f => (f.1, escapeVal f.2))) :=
  format_eq hpid htid hs1 hs2 ht ha

/-- The thread field ignores removal and renaming. -/
theorem C27_fails_tid (env : Env) (clock : Clock) (d : Data) (r : Record) (line : Str) (htid : r.tid < 2 ^ 64)
    (h : format env clock d r = .ok line) :
    ∃ before after, line = before ++ fieldText (ch! "tid", hexText r.tid) ++ after := by
  unfold format at h
  rw [write_tid env htid, List.append_assoc, List.append_assoc] at h
  obtain ⟨a, b, e, _⟩ := concat_mid h
  exact ⟨a, b, e⟩

example (env : Env) (hpid : env.pid < 2 ^ 64) :
    let d := Data.build [.remove (ch! "tid"), .rename (ch! "tid") (ch! "thread")]
    ∃ line, format env (fun _ _ _ _ => .ok (ch! "now")) d (sample (ch! "k") (ch! "v")) = .ok line :=
  ⟨_, format_eq (times := [(ch! "timestamp", ch! "now")]) (attrs := [(ch! "k", ch! "v")]) hpid (by decide) (by decide)
    (by decide) (.cons ⟨rfl, rfl⟩ .nil) (.cons ⟨rfl, .string ⟨by decide, [], rfl⟩⟩ .nil)⟩

/-! ## The builder -/

theorem lookup_insert {α : Type} (key k : Str) (v : α) (m : List (Str × α)) (hm : m.Pairwise fun a b => a.1 < b.1) :
    lookup k (insert key v m) = if key = k then some v else lookup k m := by
  induction m with
  | nil => simp [insert, lookup]
  | cons kv m ih =>
    obtain ⟨a, b⟩ := kv
    have ih := ih (List.pairwise_cons.1 hm).2
    unfold insert
    by_cases h1 : a = key
    · subst h1
      simp only [if_true, lookup]
      split <;> rfl
    · rw [if_neg h1]
      by_cases h2 : key < a
      · rw [if_pos h2]
        simp only [lookup]
      · rw [if_neg h2]
        simp only [lookup, ih]
        by_cases h3 : a = k
        · subst h3
          rw [if_pos rfl, if_neg (fun e => h1 e.symm), if_pos rfl]
        · simp [h3]

theorem insert_sorted {α : Type} (key : Str) (v : α) (m : List (Str × α)) (hm : m.Pairwise fun a b => a.1 < b.1) :
    (insert key v m).Pairwise fun a b => a.1 < b.1 := by
  have hmem : ∀ (m : List (Str × α)) (x : Str × α), x ∈ insert key v m → x.1 = key ∨ x ∈ m := by
    intro m
    induction m with
    | nil => intro x hx; simp [insert] at hx; exact .inl (by rw [hx])
    | cons kv m ih =>
      obtain ⟨a, b⟩ := kv
      intro x hx
      unfold insert at hx
      split at hx
      · rcases List.mem_cons.1 hx with rfl | hx
        · exact .inl rfl
        · exact .inr (List.mem_cons_of_mem _ hx)
      · split at hx
        · rcases List.mem_cons.1 hx with rfl | hx
          · exact .inl rfl
          · exact .inr hx
        · rcases List.mem_cons.1 hx with rfl | hx
          · exact .inr List.mem_cons_self
          · rcases ih x hx with h | h
            · exact .inl h
            · exact .inr (List.mem_cons_of_mem _ h)
  induction m with
  | nil => simp [insert]
  | cons kv m ih =>
    obtain ⟨a, b⟩ := kv
    have hm' := List.pairwise_cons.1 hm
    unfold insert
    by_cases h1 : a = key
    · subst h1
      rw [if_pos rfl]
      exact List.pairwise_cons.2 ⟨fun x hx => hm'.1 x hx, hm'.2⟩
    · rw [if_neg h1]
      by_cases h2 : key < a
      · rw [if_pos h2]
        refine List.pairwise_cons.2 ⟨fun x hx => ?_, hm⟩
        rcases List.mem_cons.1 hx with rfl | hx
        · exact h2
        · exact List.lt_trans h2 (hm'.1 x hx)
      · rw [if_neg h2]
        refine List.pairwise_cons.2 ⟨fun x hx => ?_, ih hm'.2⟩
        rcases hmem m x hx with e | hx
        · rw [e]
          exact Std.lt_of_le_of_ne (Std.not_lt.1 h2) h1
        · exact hm'.1 x hx

theorem last_snoc {α : Type} (f : Call → Option α) (cs : List Call) (c : Call) :
    last f (cs ++ [c]) = (f c).or (last f cs) := by
  simp only [last, List.reverse_append, List.reverse_cons, List.reverse_nil, List.nil_append, List.singleton_append,
    List.findSome?_cons]
  cases f c <;> rfl

/-- **C27.** What a builder remembers of any sequence of calls: the last constant, the last new name and the last
timestamp format for each name, beside the timestamp that is there from the start, and all removals; constants and
timestamps are written in the order of their names. -/
theorem C27_builder (calls : List Call) :
    let d := Data.build calls
    (∀ n, lookup n d.constants = last (Call.created n) calls)
    ∧ (∀ n, lookup n d.renamed = last (Call.renamed n) calls)
    ∧ (∀ n, n ∈ d.removed ↔ .remove n ∈ calls)
    ∧ (∀ n, lookup n d.timestamps = (last (Call.stamped n) calls).or
        (if n = ch! "timestamp" then some ⟨ch! "%Y-%m-%d %H:%M:%S %z", true⟩ else none))
    ∧ d.constants.Pairwise (fun a b => a.1 < b.1) ∧ d.renamed.Pairwise (fun a b => a.1 < b.1)
    ∧ d.timestamps.Pairwise (fun a b => a.1 < b.1) := by
  induction calls using snoc_induction with
  | nil =>
    refine ⟨fun n => rfl, fun n => rfl, fun n => by simp [Data.build, Data.init], fun n => ?_, by simp [Data.build, Data.init],
      by simp [Data.build, Data.init], by simp [Data.build, Data.init]⟩
    simp only [Data.build, List.foldl_nil, Data.init, lookup, last, List.reverse_nil, List.findSome?_nil, Option.none_or,
      Stamp.make]
    by_cases h : n = ch! "timestamp"
    · subst h; rfl
    · rw [if_neg (fun e => h e.symm), if_neg h]
  | snoc cs c ih =>
    obtain ⟨h1, h2, h3, h4, s1, s2, s3⟩ := ih
    have e : Data.build (cs ++ [c]) = (Data.build cs).call c := by simp [Data.build]
    simp only [e, last_snoc]
    cases c with
    | create n v =>
      refine ⟨fun m => ?_, fun m => ?_, fun m => ?_, fun m => ?_, insert_sorted _ _ _ s1, s2, s3⟩
      · simp only [Data.call, lookup_insert _ _ _ _ s1, Call.created, h1]
        split <;> rfl
      · simpa [Data.call, Call.renamed] using h2 m
      · simpa [Data.call] using h3 m
      · simpa [Data.call, Call.stamped] using h4 m
    | rename n v =>
      refine ⟨fun m => ?_, fun m => ?_, fun m => ?_, fun m => ?_, s1, insert_sorted _ _ _ s2, s3⟩
      · simpa [Data.call, Call.created] using h1 m
      · simp only [Data.call, lookup_insert _ _ _ _ s2, Call.renamed, h2]
        split <;> rfl
      · simpa [Data.call] using h3 m
      · simpa [Data.call, Call.stamped] using h4 m
    | remove n =>
      refine ⟨fun m => ?_, fun m => ?_, fun m => ?_, fun m => ?_, s1, s2, s3⟩
      · simpa [Data.call, Call.created] using h1 m
      · simpa [Data.call, Call.renamed] using h2 m
      · have := h3 m
        simp only [Data.call, List.mem_cons, List.mem_append, List.not_mem_nil, or_false, this, Call.remove.injEq]
        exact Or.comm
      · simpa [Data.call, Call.stamped] using h4 m
    | timestamp n p g =>
      refine ⟨fun m => ?_, fun m => ?_, fun m => ?_, fun m => ?_, s1, s2, insert_sorted _ _ _ s3⟩
      · simpa [Data.call, Call.created] using h1 m
      · simpa [Data.call, Call.renamed] using h2 m
      · simpa [Data.call] using h3 m
      · simp only [Data.call, lookup_insert _ _ _ _ s3, Call.stamped, h4, Stamp.make]
        split <;> rfl

example :
    let d := Data.build [.create (ch! "b") (ch! "1"), .create (ch! "a") (ch! "2"), .create (ch! "b") (ch! "3"),
      .timestamp (ch! "t") [] false]
    d.constants = [(ch! "a", ch! "2"), (ch! "b", ch! "3")]
    ∧ d.timestamps.map (·.1) = [ch! "t", ch! "timestamp"] := by decide

/-! ## The factory -/

/-- A timestamp format as it is configured. -/
structure Format where
  name : Str
  pattern : Str
  gmtime : Option Bool

open Config (Json Node)

/-- Its node. -/
def Format.At (f : Format) (node : Json) : Prop :=
  ∃ ms, node = .obj ms ∧ Config.member (ch! "strftime") ms = some (.str f.pattern)
    ∧ Config.member (ch! "gmtime") ms = f.gmtime.map Json.bool

/-- A member that is a table of texts. -/
def Table (ms : List (Str × Json)) (key : Str) (kvs : List (Str × Str)) : Prop :=
  (Config.member key ms = none ∧ kvs = [])
  ∨ Config.member key ms = some (.obj (kvs.map fun kv => (kv.1, .str kv.2)))

/-- No NUL. -/
def Plain (s : Str) : Prop := '\x00' ∉ s

theorem pairs_ok (make : Str → Str → Call) (cursor : Str) (kvs : List (Str × Str)) (hp : ∀ kv ∈ kvs, Plain kv.1 ∧ Plain kv.2) :
    pairs make ((kvs.map fun kv => (kv.1, Json.str kv.2)).map fun (k, v) =>
      (Config.cstr k, ({ value := v, cursor := Config.advanceKey cursor (Config.cstr k) } : Node)))
      = .ok (kvs.map fun kv => make kv.1 kv.2) := by
  induction kvs with
  | nil => rfl
  | cons kv kvs ih =>
    have h1 := hp kv List.mem_cons_self
    have ih := ih fun kv h => hp kv (List.mem_cons_of_mem _ h)
    simp only [List.map_cons, pairs, Node.toString, Config.cstr_plain h1.1, Config.cstr_plain h1.2, ih]

theorem section_table {ms : List (Str × Json)} {cursor key : Str} (hk : Plain key) {kvs : List (Str × Str)}
    (h : Table ms key kvs) (make : Str → Str → Call) (hp : ∀ kv ∈ kvs, Plain kv.1 ∧ Plain kv.2) :
    section_ (({ value := .obj ms, cursor := cursor } : Node).key key) Node.eachMap (pairs make)
      = .ok (kvs.map fun kv => make kv.1 kv.2) := by
  rcases h with ⟨h, rfl⟩ | h
  · simp only [Node.key, Config.cstr_plain hk, h, section_, List.map_nil]
  · simp only [Node.key, Config.cstr_plain hk, h, section_, Node.eachMap]
    exact pairs_ok make _ kvs hp

theorem names_ok (cursor : Str) (i : Nat) (ns : List Str) (hp : ∀ n ∈ ns, Plain n) :
    names (Config.children cursor i (ns.map Json.str)) = .ok (ns.map Call.remove) := by
  induction ns generalizing i with
  | nil => rfl
  | cons n ns ih =>
    have ih := ih (i + 1) fun n h => hp n (List.mem_cons_of_mem _ h)
    simp only [List.map_cons, Config.children, names, Node.toString, Config.cstr_plain (hp n List.mem_cons_self), ih]

theorem mutations_ok (cursor : Str) {fs : List Format} {ms : List (Str × Json)}
    (h : Both (fun f (m : Str × Json) => m.1 = f.name ∧ f.At m.2) fs ms) (hp : ∀ f ∈ fs, Plain f.name ∧ Plain f.pattern) :
    mutations (ms.map fun (k, v) =>
      (Config.cstr k, ({ value := v, cursor := Config.advanceKey cursor (Config.cstr k) } : Node)))
      = .ok (fs.map fun f => .timestamp f.name f.pattern (f.gmtime.getD true)) := by
  induction h with
  | nil => rfl
  | @cons f m fs ms h1 _ ih =>
    have ih := ih fun f h => hp f (List.mem_cons_of_mem _ h)
    have hf := hp f List.mem_cons_self
    obtain ⟨k, v⟩ := m
    obtain ⟨rfl, ms', rfl, e1, e2⟩ := h1
    have hm : mutation f.name { value := .obj ms', cursor := Config.advanceKey cursor f.name }
        = .ok [.timestamp f.name f.pattern (f.gmtime.getD true)] := by
      simp only [mutation, Node.key, show Config.cstr (ch! "strftime") = ch! "strftime" from rfl,
        show Config.cstr (ch! "gmtime") = ch! "gmtime" from rfl, e1, e2]
      cases f.gmtime <;> simp only [Option.map_none, Option.map_some, Node.toBool, Node.toString, Config.cstr_plain hf.2,
        Option.getD_none, Option.getD_some]
    simp only [List.map_cons, mutations, Config.cstr_plain hf.1, hm, ih, List.singleton_append]

/-- **C27.** A formatter made from a configuration is the one made by the calls written there: a constant for each member
of `create`, a new name for each member of `rename`, a removal for each element of `remove` and a timestamp for each member
of `mutate`, in UTC unless `gmtime` says otherwise. -/
theorem C27_config (cursor : Str) (ms : List (Str × Json)) (creates renames : List (Str × Str)) (removes : List Str)
    (formats : List Format)
    (h1 : Table ms (ch! "create") creates) (h2 : Table ms (ch! "rename") renames)
    (h3 : (Config.member (ch! "remove") ms = none ∧ removes = [])
      ∨ Config.member (ch! "remove") ms = some (.arr (removes.map .str)))
    (h4 : (Config.member (ch! "mutate") ms = none ∧ formats = [])
      ∨ ∃ fs, Config.member (ch! "mutate") ms = some (.obj fs) ∧ Both (fun f (m : Str × Json) => m.1 = f.name ∧ f.At m.2) formats fs)
    (p1 : ∀ kv ∈ creates, Plain kv.1 ∧ Plain kv.2) (p2 : ∀ kv ∈ renames, Plain kv.1 ∧ Plain kv.2)
    (p3 : ∀ n ∈ removes, Plain n) (p4 : ∀ f ∈ formats, Plain f.name ∧ Plain f.pattern) :
    fromConfig { value := .obj ms, cursor := cursor } = .ok (Data.build (
      creates.map (fun kv => .create kv.1 kv.2) ++ renames.map (fun kv => .rename kv.1 kv.2) ++ removes.map .remove
      ++ formats.map fun f => .timestamp f.name f.pattern (f.gmtime.getD true))) := by
  have s3 : section_ (({ value := .obj ms, cursor := cursor } : Node).key (ch! "remove")) Node.each names
      = .ok (removes.map .remove) := by
    rcases h3 with ⟨h, rfl⟩ | h
    · simp only [Node.key, show Config.cstr (ch! "remove") = ch! "remove" from rfl, h, section_, List.map_nil]
    · simp only [Node.key, show Config.cstr (ch! "remove") = ch! "remove" from rfl, h, section_, Node.each]
      exact names_ok _ 0 removes p3
  have s4 : section_ (({ value := .obj ms, cursor := cursor } : Node).key (ch! "mutate")) Node.eachMap mutations
      = .ok (formats.map fun f => .timestamp f.name f.pattern (f.gmtime.getD true)) := by
    rcases h4 with ⟨h, rfl⟩ | ⟨fs, h, hb⟩
    · simp only [Node.key, show Config.cstr (ch! "mutate") = ch! "mutate" from rfl, h, section_, List.map_nil]
    · simp only [Node.key, show Config.cstr (ch! "mutate") = ch! "mutate" from rfl, h, section_, Node.eachMap]
      exact mutations_ok _ hb p4
  simp only [fromConfig, section_table (by simp [Plain] : Plain (ch! "create")) h1 .create p1,
    section_table (by simp [Plain] : Plain (ch! "rename")) h2 .rename p2, s3, s4]

example :
    let ms : List (Str × Json) := [(ch! "remove", .arr [.str (ch! "pid")]),
      (ch! "mutate", .obj [(ch! "time", .obj [(ch! "strftime", .str (ch! "%s")), (ch! "gmtime", .bool false)])])]
    fromConfig { value := .obj ms, cursor := [] }
      = .ok (Data.build [.remove (ch! "pid"), .timestamp (ch! "time") (ch! "%s") false]) :=
  C27_config [] _ [] [] [ch! "pid"] [⟨ch! "time", ch! "%s", some false⟩] (.inl ⟨rfl, rfl⟩) (.inl ⟨rfl, rfl⟩) (.inr rfl)
    (.inr ⟨_, rfl, .cons ⟨rfl, _, rfl, rfl, rfl⟩ .nil⟩) (by simp) (by simp) (by simp [Plain]) (by simp [Plain])

end Blackhole.Tskv
