import Verif.Tskv.Spec
import Verif.StringFmt.Props

namespace Blackhole.Tskv

open Rec StringFmt

/-! ## Escaping -/

theorem escapeVal_cons (c : Char) (s : Str) : escapeVal (c :: s) = escapeChar c ++ escapeVal s := by
  simp [escapeVal, List.flatMap_cons]

theorem unescape_plain_cons {c : Char} (h : c ≠ '\\') (s : Str) : unescape (c :: s) = (unescape s).map (c :: ·) := by
  rw [unescape]
  · intro e; exact absurd e h
  · intro c' s' e; exact absurd e h

theorem unescape_char (c : Char) (s : Str) : unescape (escapeChar c ++ s) = (unescape s).map (c :: ·) := by
  fun_cases escapeChar c
  case case11 => exact unescape_plain_cons (by assumption) s
  all_goals (simp only [List.cons_append, List.nil_append, unescape, decode]; cases unescape s <;> rfl)

theorem unescape_escape (s : Str) : unescape (escapeVal s) = some s := by
  induction s with
  | nil => rfl
  | cons c s ih => rw [escapeVal_cons, unescape_char, ih]; rfl

theorem unescape_plain {s : Str} (h : '\\' ∉ s) : unescape s = some s := by
  induction s with
  | nil => rfl
  | cons c s ih =>
    rw [unescape_plain_cons (fun e => h (e ▸ List.mem_cons_self)), ih (fun e => h (List.mem_cons_of_mem _ e))]; rfl

/-- The characters that never occur in an escaped value. -/
theorem escapeVal_clean (s : Str) : ∀ c ∈ escapeVal s, c ≠ '\t' ∧ c ≠ '\n' ∧ c ≠ '\r' ∧ c ≠ '\x00' := by
  induction s with
  | nil => intro c h; simp [escapeVal] at h
  | cons a s ih =>
    intro c h
    rw [escapeVal_cons, List.mem_append] at h
    rcases h with h | h
    · revert h
      fun_cases escapeChar a
      case case11 =>
        intro h
        rw [List.mem_singleton] at h
        subst h
        refine ⟨?_, ?_, ?_, ?_⟩ <;> assumption
      all_goals (intro h; simp only [List.mem_cons, List.not_mem_nil, or_false] at h; rcases h with rfl | rfl <;> decide)
    · exact ih c h

/-! ## Keys -/

theorem escapeKey_cons (c : Char) (s : Str) :
    escapeKey (c :: s) = (if c = '=' then ['\\', '='] else [c]) ++ escapeKey s := by
  simp [escapeKey, List.flatMap_cons]

theorem escapeKey_mem {d : Char} (h1 : d ≠ '\\') {k : Str} (h : d ∉ k) : d ∉ escapeKey k := by
  induction k with
  | nil => simp [escapeKey]
  | cons c k ih =>
    rw [escapeKey_cons, List.mem_append]
    rintro (h2 | h2)
    · split at h2
      · next e =>
        simp only [List.mem_cons, List.not_mem_nil, or_false] at h2
        rcases h2 with h2 | h2
        · exact h1 h2
        · exact h (by rw [e, h2]; exact List.mem_cons_self)
      · rw [List.mem_singleton] at h2
        exact h (h2 ▸ List.mem_cons_self)
    · exact ih (fun e => h (List.mem_cons_of_mem _ e)) h2

theorem cut_escaped (s : Str) : cut ('\\' :: '=' :: s) = (cut s).map fun kv => ('=' :: kv.1, kv.2) := by
  conv => lhs; unfold cut
  rfl

theorem cut_plain {c : Char} {s : Str} (h : c ≠ '=') (h' : c = '\\' → s.head? ≠ some '=') :
    cut (c :: s) = (cut s).map fun kv => (c :: kv.1, kv.2) := by
  conv => lhs; unfold cut
  rw [if_neg h]
  split
  · next s' => exact absurd rfl (h' rfl)
  · rfl

theorem cut_key (k v : Str) (h : k.getLast? ≠ some '\\') : cut (escapeKey k ++ '=' :: v) = some (k, v) := by
  induction k with
  | nil => simp [escapeKey, cut]
  | cons c k ih =>
    have ih' : k ≠ [] → cut (escapeKey k ++ '=' :: v) = some (k, v) := by
      intro hk
      refine ih ?_
      cases k with
      | nil => exact absurd rfl hk
      | cons a k => rwa [List.getLast?_cons_cons] at h
    rw [escapeKey_cons]
    by_cases hc : c = '='
    · subst hc
      rw [if_pos rfl]
      simp only [List.cons_append, List.nil_append]
      rw [cut_escaped]
      cases k with
      | nil => simp [escapeKey, cut]
      | cons a k => rw [ih' (by simp)]; rfl
    · rw [if_neg hc]
      simp only [List.cons_append, List.nil_append]
      cases k with
      | nil =>
        simp only [escapeKey, List.flatMap_nil, List.nil_append]
        rw [cut_plain hc]
        · simp [cut]
        · intro e; subst e; simp at h
      | cons a k =>
        rw [cut_plain hc, ih' (by simp)]
        · rfl
        · intro _
          rw [escapeKey_cons]
          split
          · simp
          · simpa using by assumption

/-! ## Lines -/

theorem split_none {d : Char} {s : Str} (h : d ∉ s) : split d s = [s] := by
  induction s with
  | nil => rfl
  | cons c s ih =>
    rw [split, if_neg (fun e : c = d => h (e ▸ List.mem_cons_self)), ih (fun e => h (List.mem_cons_of_mem _ e))]

theorem split_append {d : Char} {s : Str} (h : d ∉ s) (t : Str) : split d (s ++ d :: t) = s :: split d t := by
  induction s with
  | nil => simp [split]
  | cons c s ih =>
    rw [List.cons_append, split, if_neg (fun e : c = d => h (e ▸ List.mem_cons_self)), ih (fun e => h (List.mem_cons_of_mem _ e))]

theorem split_fields {h : Str} (hh : '\t' ∉ h) (fs : List (Str × Str))
    (hf : ∀ f ∈ fs, '\t' ∉ f.1 ∧ '\t' ∉ f.2) :
    split '\t' (h ++ (fs.map fieldText).flatten) = h :: fs.map fun f => escapeKey f.1 ++ '=' :: f.2 := by
  induction fs generalizing h with
  | nil => simpa using split_none hh
  | cons f fs ih =>
    have h1 := hf f List.mem_cons_self
    have hk : '\t' ∉ escapeKey f.1 ++ '=' :: f.2 := by
      intro e
      rw [List.mem_append, List.mem_cons] at e
      rcases e with e | e | e
      · exact escapeKey_mem (by decide) h1.1 e
      · exact absurd e (by decide)
      · exact h1.2 e
    rw [List.map_cons, List.flatten_cons, fieldText, List.cons_append, List.cons_append, split_append hh,
      ih hk fun g hg => hf g (List.mem_cons_of_mem _ hg)]
    rfl

/-- A field whose key survives and whose value is read as `v`. -/
def Reads (f g : Str × Str) : Prop :=
  f.1 = g.1 ∧ KeyOk f.1 ∧ '\t' ∉ f.2 ∧ '\n' ∉ f.2 ∧ unescape f.2 = some g.2

theorem readFields_reads {fs gs : List (Str × Str)} (h : Both Reads fs gs) :
    readFields (fs.map fun f => escapeKey f.1 ++ '=' :: f.2) = some gs := by
  induction h with
  | nil => rfl
  | @cons f g fs gs h1 _ ih =>
    obtain ⟨e, ⟨_, _, hl⟩, _, _, hu⟩ := h1
    simp only [List.map_cons, readFields, readField, cut_key _ _ hl, hu, ih, Option.map_some]
    rw [e]

theorem Both.mem_left {α β : Type} {R : α → β → Prop} {as : List α} {bs : List β} (h : Both R as bs) :
    ∀ a ∈ as, ∃ b ∈ bs, R a b := by
  induction h with
  | nil => intro a h; cases h
  | cons h1 _ ih =>
    intro a ha
    rcases List.mem_cons.1 ha with rfl | ha
    · exact ⟨_, List.mem_cons_self, h1⟩
    · obtain ⟨b, hb, hr⟩ := ih a ha
      exact ⟨b, List.mem_cons_of_mem _ hb, hr⟩

theorem Both.append {α β : Type} {R : α → β → Prop} {as : List α} {bs : List β} (h : Both R as bs) {cs : List α}
    {ds : List β} (h' : Both R cs ds) : Both R (as ++ cs) (bs ++ ds) := by
  induction h with
  | nil => exact h'
  | cons h1 _ ih => exact .cons h1 ih

theorem read_fields {fs gs : List (Str × Str)} (h : Both Reads fs gs) :
    read (ch! "tskv" ++ (fs.map fieldText).flatten) = some gs := by
  have hf : ∀ f ∈ fs, '\t' ∉ f.1 ∧ '\t' ∉ f.2 := by
    intro f hf
    obtain ⟨g, _, _, hk, h2, _⟩ := Both.mem_left h f hf
    exact ⟨hk.1, h2⟩
  rw [read, split_fields (by decide) fs hf]
  simp only [if_true]
  exact readFields_reads h

theorem line_no_newline {fs gs : List (Str × Str)} (h : Both Reads fs gs) :
    '\n' ∉ ch! "tskv" ++ (fs.map fieldText).flatten := by
  intro e
  rw [List.mem_append] at e
  rcases e with e | e
  · exact absurd e (by decide)
  · rw [List.mem_flatten] at e
    obtain ⟨s, hs, e⟩ := e
    rw [List.mem_map] at hs
    obtain ⟨f, hf, rfl⟩ := hs
    obtain ⟨g, _, _, hk, _, h3, _⟩ := Both.mem_left h f hf
    simp only [fieldText, List.cons_append, List.mem_cons, List.mem_append] at e
    rcases e with e | e | e | e
    · exact absurd e (by decide)
    · exact escapeKey_mem (by decide) hk.2.1 e
    · exact absurd e (by decide)
    · exact h3 e

/-! ## The formatter -/

theorem written_append (d : Data) (as bs : List (Str × Str)) : written d (as ++ bs) = written d as ++ written d bs := by
  simp [written, shown]

theorem addKey_eq (d : Data) (name : Str) : addKey d name = '\t' :: escapeKey (shownAs d name) := by
  unfold addKey shownAs
  cases lookup name d.renamed <;> rfl

theorem addView_eq (d : Data) (name value : Str) : addView d name value = written d [(name, escapeVal value)] := by
  unfold addView written shown
  by_cases h : name ∈ d.removed <;> simp [h, addKey_eq, fieldText]

theorem write_eq (env : Env) (a : Fmt.Arg) {s : Str} (h : Fmt.writeArg env.fd {} a = .ok s) :
    env.write (ch! "={}") a = .ok ('=' :: s) := by
  have := Fmt.C49_expand env.fd [a] [.text ['='], .field none none] false ⟨by simp, by simp, by simp, trivial⟩
    ⟨by simp, trivial⟩ ⟨rfl, trivial⟩
  have e : Fmt.format env.fd (ch! "={}") [a] = .ok ('=' :: s) := by
    refine this.trans ?_
    simp [Fmt.expand, Fmt.meaningOf, h, Except.map]
  simp only [Env.write, e]

theorem write_tid (env : Env) {n : Nat} (h : n < 2 ^ 64) :
    env.write (ch! "\ttid={:#x}") (.ulong n) = .ok (ch! "\ttid=" ++ hexText n) := by
  have hv : ({ hash := true, type := some 'x' } : Fmt.SpecText).Valid :=
    ⟨by simp, by simp, by simp, by simp, by simp, by simp; decide, by simp [Fmt.SpecText.print]⟩
  have := Fmt.C49_expand env.fd [.ulong n] [.text (ch! "\ttid="), .field none (some { hash := true, type := some 'x' })] false
    ⟨by simp, by simp, by simpa using hv, trivial⟩
    ⟨by intro b u hb hu; simp at hb hu; subst hb hu
        exact ⟨by simp [Fmt.Arg.isNumeric, Fmt.Arg.isInteger], by simp, by simp⟩, trivial⟩ ⟨rfl, trivial⟩
  have e : Fmt.format env.fd (ch! "\ttid={:#x}") [.ulong n] = .ok (ch! "\ttid=" ++ hexText n) := by
    refine this.trans ?_
    simp only [Fmt.expand, Fmt.meaningOf, List.getElem?_cons_zero, Option.getD_none, Fmt.C45_text env.fd _ _ _ (.ulong h)]
    simp [Fmt.intDigits, Fmt.layout, Fmt.signText, Fmt.SpecText.meaning, Except.map, hexText]
  simp only [Env.write, e]

theorem addArg_eq (env : Env) (d : Data) (name : Str) (a : Fmt.Arg) {s : Str} (h : Fmt.writeArg env.fd {} a = .ok s) :
    addArg env d name a = .ok (written d [(name, s)]) := by
  unfold addArg written shown
  by_cases hr : name ∈ d.removed <;> simp [hr, write_eq env a h, addKey_eq, fieldText]

end Blackhole.Tskv
