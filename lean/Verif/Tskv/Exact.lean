import Verif.Tskv.Props

/-! # C26: exactly which formatters and records give lines that can be read -/

namespace Blackhole.Tskv

open Rec StringFmt

theorem Both.len {α β : Type} {R : α → β → Prop} {as : List α} {bs : List β} (h : Both R as bs) : as.length = bs.length := by
  induction h with
  | nil => rfl
  | cons _ _ ih => simp [ih]

theorem Both.left {α β : Type} {R : α → β → Prop} {as cs : List α} {bs ds : List β} (h : Both R (as ++ cs) (bs ++ ds))
    (hl : as.length = bs.length) : Both R as bs := by
  induction as generalizing bs with
  | nil =>
    cases bs with
    | nil => exact .nil
    | cons b bs => cases hl
  | cons a as ih =>
    cases bs with
    | nil => cases hl
    | cons b bs =>
      cases h with
      | cons h1 h2 => exact .cons h1 (ih h2 (by simpa using hl))

theorem Both.diag {α : Type} {R : α → α → Prop} {as : List α} (h : Both R as as) : ∀ a ∈ as, R a a := by
  induction as with
  | nil => intro a ha; cases ha
  | cons x as ih =>
    cases h with
    | cons h1 h2 =>
      intro a ha
      rcases List.mem_cons.1 ha with rfl | ha
      · exact h1
      · exact ih h2 a ha

/-! ## What reading costs -/

theorem split_length (d : Char) (s : Str) : (split d s).length = s.count d + 1 := by
  induction s with
  | nil => rfl
  | cons c s ih =>
    unfold split
    by_cases h : c = d
    · rw [if_pos h, List.length_cons, ih, h, List.count_cons_self]
    · rw [if_neg h, List.count_cons_of_ne h]
      cases hs : split d s with
      | nil => rw [hs] at ih; simp at ih
      | cons x xs => rw [hs] at ih; simpa using ih

theorem readFields_length : ∀ (fs : List Str) (gs : List (Str × Str)), readFields fs = some gs → fs.length = gs.length := by
  intro fs
  induction fs with
  | nil => intro gs h; simp only [readFields, Option.some.injEq] at h; subst h; rfl
  | cons f fs ih =>
    intro gs h
    unfold readFields at h
    cases h1 : readField f with
    | none => rw [h1] at h; cases h
    | some kv =>
      cases h2 : readFields fs with
      | none => rw [h1, h2] at h; cases h
      | some kvs =>
        rw [h1, h2] at h
        simp only [Option.some.injEq] at h
        subst h
        simp [ih kvs h2]

theorem count_escapeKey (k : Str) : (escapeKey k).count '\t' = k.count '\t' := by
  induction k with
  | nil => rfl
  | cons c k ih =>
    rw [escapeKey_cons, List.count_append, ih, List.count_cons]
    by_cases h : c = '='
    · subst h; simp
    · rw [if_neg h]
      simp [List.count_cons, Nat.add_comm]

theorem count_fields (fs : List (Str × Str)) :
    fs.length ≤ (fs.map fieldText).flatten.count '\t' ∧
    ((fs.map fieldText).flatten.count '\t' = fs.length → ∀ f ∈ fs, '\t' ∉ f.1 ∧ '\t' ∉ f.2) := by
  induction fs with
  | nil => exact ⟨Nat.le_refl _, fun _ f hf => by cases hf⟩
  | cons f fs ih =>
    obtain ⟨h1, h2⟩ := ih
    have e : ((f :: fs).map fieldText).flatten.count '\t'
        = f.1.count '\t' + f.2.count '\t' + 1 + (fs.map fieldText).flatten.count '\t' := by
      rw [List.map_cons, List.flatten_cons, List.count_append, fieldText, List.cons_append, List.count_cons_self,
        List.count_append, count_escapeKey, List.count_cons_of_ne (by decide)]
    rw [e, List.length_cons]
    refine ⟨by omega, ?_⟩
    intro h g hg
    rcases List.mem_cons.1 hg with rfl | hg
    · exact ⟨List.count_eq_zero.1 (by omega), List.count_eq_zero.1 (by omega)⟩
    · exact h2 (by omega) g hg

theorem cut_backslash (k v : Str) :
    cut (escapeKey k ++ '\\' :: '=' :: v) = (cut v).map fun kv => (k ++ '=' :: kv.1, kv.2) := by
  induction k with
  | nil => exact cut_escaped v
  | cons c k ih =>
    rw [escapeKey_cons]
    by_cases h : c = '='
    · subst h
      rw [if_pos rfl]
      show cut ('\\' :: '=' :: (escapeKey k ++ '\\' :: '=' :: v)) = _
      rw [cut_escaped, ih]
      cases cut v <;> rfl
    · rw [if_neg h]
      show cut (c :: (escapeKey k ++ '\\' :: '=' :: v)) = _
      rw [cut_plain h, ih]
      · cases cut v <;> rfl
      · intro _ e
        cases k with
        | nil => cases e
        | cons x k =>
          rw [escapeKey_cons] at e
          by_cases hx : x = '='
          · rw [if_pos hx] at e; cases e
          · rw [if_neg hx] at e
            simp only [List.cons_append, List.nil_append, List.head?_cons, Option.some.injEq] at e
            exact hx e

/-- A field that is read under its name has a name that does not end with a backslash, and its value is read. -/
theorem readField_key {k v w : Str} (h : readField (escapeKey k ++ '=' :: v) = some (k, w)) :
    k.getLast? ≠ some '\\' ∧ unescape v = some w := by
  have h1 : k.getLast? ≠ some '\\' := by
    intro hl
    obtain ⟨p, rfl⟩ := List.getLast?_eq_some_iff.1 hl
    have e : escapeKey (p ++ ['\\']) = escapeKey p ++ ['\\'] := by simp [escapeKey]
    rw [e, List.append_assoc] at h
    unfold readField at h
    have := cut_backslash p v
    rw [show escapeKey p ++ (['\\'] ++ '=' :: v) = escapeKey p ++ '\\' :: '=' :: v from rfl, this] at h
    cases hc : cut v with
    | none => rw [hc] at h; cases h
    | some kv =>
      rw [hc] at h
      simp only [Option.map_some] at h
      cases hu : unescape kv.2 with
      | none => rw [hu] at h; cases h
      | some x =>
        rw [hu] at h
        simp only [Option.map_some, Option.some.injEq, Prod.mk.injEq, List.append_cancel_left_eq, List.cons.injEq] at h
        exact absurd h.1.1 (by decide)
  refine ⟨h1, ?_⟩
  unfold readField at h
  rw [cut_key k v h1] at h
  simp only at h
  cases hu : unescape v with
  | none => rw [hu] at h; cases h
  | some x =>
    rw [hu] at h
    simp only [Option.map_some, Option.some.injEq, Prod.mk.injEq] at h
    rw [h.2]

theorem unescape_length : ∀ (s t : Str), unescape s = some t → t.length ≤ s.length ∧ ('\\' ∈ s → t.length < s.length)
  | [], t, h => by
    simp only [unescape, Option.some.injEq] at h
    subst h
    exact ⟨Nat.le_refl _, fun h => by cases h⟩
  | [c], t, h => by
    by_cases hc : c = '\\'
    · subst hc
      simp [unescape] at h
    · rw [unescape_plain_cons hc] at h
      simp only [unescape, Option.map_some, Option.some.injEq] at h
      subst h
      refine ⟨Nat.le_refl _, fun h => ?_⟩
      rw [List.mem_singleton] at h
      exact absurd h.symm hc
  | c :: x :: s, t, h => by
    by_cases hc : c = '\\'
    · subst hc
      rw [show unescape ('\\' :: x :: s) = match decode x, unescape s with
        | some c, some s => some (c :: s)
        | _, _ => none from rfl] at h
      cases h1 : decode x with
      | none => rw [h1] at h; cases h
      | some y =>
        cases h2 : unescape s with
        | none => rw [h1, h2] at h; cases h
        | some u =>
          rw [h1, h2] at h
          simp only [Option.some.injEq] at h
          subst h
          have := (unescape_length s u h2).1
          simp only [List.length_cons]
          exact ⟨by omega, fun _ => by omega⟩
    · rw [unescape_plain_cons hc] at h
      cases h2 : unescape (x :: s) with
      | none => rw [h2] at h; cases h
      | some u =>
        rw [h2] at h
        simp only [Option.map_some, Option.some.injEq] at h
        subst h
        obtain ⟨h3, h4⟩ := unescape_length (x :: s) u h2
        simp only [List.length_cons] at h3 h4 ⊢
        refine ⟨by omega, fun hm => ?_⟩
        rcases List.mem_cons.1 hm with e | hm
        · exact absurd e.symm hc
        · have := h4 hm; omega

/-- A text that stands for itself has no backslash. -/
theorem unescape_self {s : Str} (h : unescape s = some s) : '\\' ∉ s := fun hm =>
  Nat.lt_irrefl _ ((unescape_length s s h).2 hm)

theorem readFields_both {fs gs : List (Str × Str)} (hk : Both (fun f g => f.1 = g.1) fs gs)
    (h : readFields (fs.map fun f => escapeKey f.1 ++ '=' :: f.2) = some gs) :
    Both (fun f g => f.1 = g.1 ∧ f.1.getLast? ≠ some '\\' ∧ unescape f.2 = some g.2) fs gs := by
  induction hk with
  | nil => exact .nil
  | @cons f g fs gs h1 _ ih =>
    rw [List.map_cons] at h
    unfold readFields at h
    cases h2 : readField (escapeKey f.1 ++ '=' :: f.2) with
    | none => rw [h2] at h; cases h
    | some kv =>
      rw [h2] at h
      cases h3 : readFields (fs.map fun f => escapeKey f.1 ++ '=' :: f.2) with
      | none => rw [h3] at h; cases h
      | some kvs =>
        rw [h3] at h
        simp only [Option.some.injEq, List.cons.injEq] at h
        obtain ⟨rfl, rfl⟩ := h
        refine .cons ?_ (ih h3)
        rw [show kv = (f.1, kv.2) from by rw [h1]] at h2
        exact ⟨h1, readField_key h2⟩

/-- The converse of `read_fields`: fields that are read as they should be are clean. -/
theorem reads_of_read {fs gs : List (Str × Str)} (hk : Both (fun f g => f.1 = g.1) fs gs)
    (hn : '\n' ∉ ch! "tskv" ++ (fs.map fieldText).flatten)
    (h : read (ch! "tskv" ++ (fs.map fieldText).flatten) = some gs) : Both Reads fs gs := by
  have hlen := Both.len hk
  have htab : ∀ f ∈ fs, '\t' ∉ f.1 ∧ '\t' ∉ f.2 := by
    apply (count_fields fs).2
    have hs := split_length '\t' (ch! "tskv" ++ (fs.map fieldText).flatten)
    unfold read at h
    cases hx : split '\t' (ch! "tskv" ++ (fs.map fieldText).flatten) with
    | nil => rw [hx] at h; cases h
    | cons header rest =>
      rw [hx] at h hs
      simp only at h
      split at h
      · have := readFields_length rest gs h
        rw [List.count_append, show (ch! "tskv").count '\t' = 0 from by decide] at hs
        simp only [List.length_cons] at hs
        omega
      · cases h
  rw [read, split_fields (by decide) fs htab] at h
  simp only [if_true] at h
  have hb := readFields_both hk h
  have hnl : ∀ f ∈ fs, '\n' ∉ f.1 ∧ '\n' ∉ f.2 := by
    intro f hf
    have key : ∀ c ∈ fieldText f, c ≠ '\n' := by
      intro c hc e
      subst e
      exact hn (List.mem_append_right _ (List.mem_flatten.2 ⟨_, List.mem_map.2 ⟨f, hf, rfl⟩, hc⟩))
    refine ⟨fun e => ?_, fun e => ?_⟩
    · refine key '\n' ?_ rfl
      rw [fieldText, List.cons_append]
      refine List.mem_cons_of_mem _ (List.mem_append_left _ ?_)
      unfold escapeKey
      exact List.mem_flatMap.2 ⟨'\n', e, by simp⟩
    · refine key '\n' ?_ rfl
      rw [fieldText, List.cons_append]
      exact List.mem_cons_of_mem _ (List.mem_append_right _ (List.mem_cons_of_mem _ e))
  clear h hk hn hlen
  induction hb with
  | nil => exact .nil
  | @cons f g fs gs h1 _ ih =>
    refine .cons ?_ (ih (fun x hx => htab x (List.mem_cons_of_mem _ hx)) fun x hx => hnl x (List.mem_cons_of_mem _ hx))
    have t := htab f List.mem_cons_self
    have n := hnl f List.mem_cons_self
    exact ⟨h1.1, ⟨t.1, n.1, h1.2.1⟩, t.2, n.2, h1.2.2⟩

/-! ## C26 -/

theorem shown_keys (d : Data) (enc : Str × Str → Str) (fs : List (Str × Str)) :
    Both (fun f g => f.1 = g.1) (shown d (fs.map fun f => (f.1, enc f))) (shown d fs) := by
  induction fs with
  | nil => exact .nil
  | cons f fs ih =>
    by_cases hr : f.1 ∈ d.removed
    · simpa [shown, hr] using ih
    · have e1 : shown d ((f :: fs).map fun f => (f.1, enc f))
          = (shownAs d f.1, enc f) :: shown d (fs.map fun f => (f.1, enc f)) := by simp [shown, hr]
      have e2 : shown d (f :: fs) = (shownAs d f.1, f.2) :: shown d fs := by simp [shown, hr]
      rw [e1, e2]
      exact .cons rfl ih

/-- **C26, exactly.** A line is always written. It is one line, and reading it gives the constants, the timestamps, the severity,
the process, the thread, the message and the attributes, in this order, each with exactly its value, if and only if the names
under which fields are written contain no tab or newline and do not end with a backslash, and the constants contain no tab,
newline or backslash. -/
theorem C26_exact (env : Env) (clock : Clock) (d : Data) (r : Record) (times attrs : List (Str × Str))
    (hpid : env.pid < 2 ^ 64) (htid : r.tid < 2 ^ 64) (hs1 : -2 ^ 31 ≤ r.severity) (hs2 : r.severity < 2 ^ 31)
    (ht : Both (TimesShow clock r) d.timestamps times) (ha : Both (AttributeShows env) r.pack.flatten attrs) :
    ∃ line, format env clock d r = .ok line ∧
      (('\n' ∉ line ∧ read line = some (
          shown d (d.constants ++ times ++ [(ch! "severity", decimalText r.severity), (ch! "pid", Nat.toDigits 10 env.pid)])
          ++ [(ch! "tid", hexText r.tid)]
          ++ shown d ((ch! "message", r.message.text) :: attrs))) ↔
        ((∀ kv ∈ shown d (d.constants ++ times ++ [(ch! "severity", []), (ch! "pid", []), (ch! "message", [])] ++ attrs),
          KeyOk kv.1) ∧
        ∀ kv ∈ d.constants, kv.1 ∉ d.removed → ConstantOk kv.2)) := by
  refine ⟨_, format_eq hpid htid hs1 hs2 ht ha, ?_, ?_⟩
  · rintro ⟨hn, hr⟩
    have e : ch! "tskv" ++ written d (d.constants ++ times.map (fun f => (f.1, escapeVal f.2))
          ++ [(ch! "severity", decimalText r.severity), (ch! "pid", Nat.toDigits 10 env.pid)])
        ++ fieldText (ch! "tid", hexText r.tid)
        ++ written d ((ch! "message", escapeVal r.message.text) :: attrs.map fun f => (f.1, escapeVal f.2))
        = ch! "tskv" ++ ((shown d d.constants ++ (shown d (times.map fun f => (f.1, escapeVal f.2))
          ++ (shown d [(ch! "severity", decimalText r.severity), (ch! "pid", Nat.toDigits 10 env.pid)]
          ++ ([(ch! "tid", hexText r.tid)] ++ (shown d [(ch! "message", escapeVal r.message.text)]
          ++ shown d (attrs.map fun f => (f.1, escapeVal f.2))))))).map fieldText).flatten := by
      rw [show ∀ x, (ch! "message", escapeVal r.message.text) :: x = [(ch! "message", escapeVal r.message.text)] ++ x
        from fun _ => rfl]
      simp only [written, shown_append, List.map_append, List.flatten_append, List.append_assoc, List.map_cons, List.map_nil,
        List.flatten_cons, List.flatten_nil, List.append_nil]
    have eg : shown d (d.constants ++ times ++ [(ch! "severity", decimalText r.severity), (ch! "pid", Nat.toDigits 10 env.pid)])
          ++ [(ch! "tid", hexText r.tid)]
          ++ shown d ((ch! "message", r.message.text) :: attrs)
        = shown d d.constants ++ (shown d times
          ++ (shown d [(ch! "severity", decimalText r.severity), (ch! "pid", Nat.toDigits 10 env.pid)]
          ++ ([(ch! "tid", hexText r.tid)] ++ (shown d [(ch! "message", r.message.text)] ++ shown d attrs)))) := by
      rw [show (ch! "message", r.message.text) :: attrs = [(ch! "message", r.message.text)] ++ attrs from rfl]
      simp only [shown_append, List.append_assoc]
    rw [e] at hn hr
    rw [eg] at hr
    have hself : ∀ fs, Both (fun f g : Str × Str => f.1 = g.1) (shown d fs) (shown d fs) := by
      intro fs
      have := shown_keys d (fun f => f.2) fs
      simpa using this
    have hk : Both (fun f g : Str × Str => f.1 = g.1)
        (shown d d.constants ++ (shown d (times.map fun f => (f.1, escapeVal f.2))
          ++ (shown d [(ch! "severity", decimalText r.severity), (ch! "pid", Nat.toDigits 10 env.pid)]
          ++ ([(ch! "tid", hexText r.tid)] ++ (shown d [(ch! "message", escapeVal r.message.text)]
          ++ shown d (attrs.map fun f => (f.1, escapeVal f.2)))))))
        (shown d d.constants ++ (shown d times
          ++ (shown d [(ch! "severity", decimalText r.severity), (ch! "pid", Nat.toDigits 10 env.pid)]
          ++ ([(ch! "tid", hexText r.tid)] ++ (shown d [(ch! "message", r.message.text)] ++ shown d attrs))))) :=
      Both.append (hself _) (Both.append (shown_keys d (fun f => escapeVal f.2) times) (Both.append (hself _)
        (Both.append (R := fun f g : Str × Str => f.1 = g.1) (.cons rfl .nil) (Both.append (shown_keys d (fun f => escapeVal f.2) [(ch! "message", r.message.text)])
          (shown_keys d (fun f => escapeVal f.2) attrs)))))
    have hb := reads_of_read hk hn hr
    have hkeys : ∀ f ∈ shown d d.constants ++ (shown d (times.map fun f => (f.1, escapeVal f.2))
          ++ (shown d [(ch! "severity", decimalText r.severity), (ch! "pid", Nat.toDigits 10 env.pid)]
          ++ ([(ch! "tid", hexText r.tid)] ++ (shown d [(ch! "message", escapeVal r.message.text)]
          ++ shown d (attrs.map fun f => (f.1, escapeVal f.2)))))), KeyOk f.1 := by
      intro f hf
      obtain ⟨g, _, _, hk, _⟩ := Both.mem_left hb f hf
      exact hk
    simp only [List.mem_append] at hkeys
    refine ⟨?_, ?_⟩
    · have enc : ∀ (fs : List (Str × Str)) (enc : Str × Str → Str) (kv : Str × Str), kv ∈ shown d fs →
          ∃ f ∈ shown d (fs.map fun f => (f.1, enc f)), f.1 = kv.1 := by
        intro fs enc kv h
        simp only [shown, List.mem_map, List.mem_filter] at h ⊢
        obtain ⟨a, ⟨h1, h2⟩, rfl⟩ := h
        exact ⟨_, ⟨(a.1, enc a), ⟨⟨a, h1, rfl⟩, h2⟩, rfl⟩, rfl⟩
      have one : ∀ (name v w : Str) (kv : Str × Str), kv ∈ shown d [(name, v)] → ∃ f ∈ shown d [(name, w)], f.1 = kv.1 := by
        intro name v w kv h
        exact enc [(name, v)] (fun _ => w) kv h
      intro kv h
      rw [shown_append, shown_append, shown_append, List.mem_append, List.mem_append, List.mem_append,
        show [(ch! "severity", ([] : Str)), (ch! "pid", []), (ch! "message", [])]
          = [(ch! "severity", [])] ++ ([(ch! "pid", [])] ++ [(ch! "message", [])]) from rfl,
        shown_append, shown_append, List.mem_append, List.mem_append] at h
      rw [show [(ch! "severity", decimalText r.severity), (ch! "pid", Nat.toDigits 10 env.pid)]
          = [(ch! "severity", decimalText r.severity)] ++ [(ch! "pid", Nat.toDigits 10 env.pid)] from rfl,
        shown_append] at hkeys
      simp only [List.mem_append] at hkeys
      rcases h with ((h | h) | h | h | h) | h
      · exact hkeys kv (.inl h)
      · obtain ⟨f, hf, e⟩ := enc times (fun f => escapeVal f.2) kv h
        rw [← e]; exact hkeys f (.inr (.inl hf))
      · obtain ⟨f, hf, e⟩ := one _ _ (decimalText r.severity) kv h
        rw [← e]; exact hkeys f (.inr (.inr (.inl (.inl hf))))
      · obtain ⟨f, hf, e⟩ := one _ _ (Nat.toDigits 10 env.pid) kv h
        rw [← e]; exact hkeys f (.inr (.inr (.inl (.inr hf))))
      · obtain ⟨f, hf, e⟩ := one _ _ (escapeVal r.message.text) kv h
        rw [← e]; exact hkeys f (.inr (.inr (.inr (.inr (.inl hf)))))
      · obtain ⟨f, hf, e⟩ := enc attrs (fun f => escapeVal f.2) kv h
        rw [← e]; exact hkeys f (.inr (.inr (.inr (.inr (.inr hf)))))
    · intro kv hkv hrem
      have hc := Both.diag (Both.left hb rfl) (shownAs d kv.1, kv.2) (by
        simp only [shown, List.mem_map, List.mem_filter]
        exact ⟨kv, ⟨hkv, by simpa using hrem⟩, rfl⟩)
      exact ⟨hc.2.2.1, hc.2.2.2.1, unescape_self hc.2.2.2.2⟩
  · rintro ⟨hk, hc⟩
    obtain ⟨line, h1, h2, h3⟩ := C26_read_partial env clock d r times attrs hpid htid hs1 hs2 ht ha hk hc
    rw [format_eq hpid htid hs1 hs2 ht ha, Except.ok.injEq] at h1
    rw [h1]
    exact ⟨h2, h3⟩

/-- Both sides occur: a clean name, and names and constants that are not. -/
example : KeyOk (ch! "k\\=x") ∧ ¬ KeyOk (ch! "k\\") ∧ ¬ KeyOk (ch! "a\tb") ∧ ConstantOk (ch! "x y") ∧ ¬ ConstantOk (ch! "C:\\log") := by
  unfold KeyOk ConstantOk
  decide

end Blackhole.Tskv
