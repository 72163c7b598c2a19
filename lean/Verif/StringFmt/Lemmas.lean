import Verif.StringFmt.Model
import Verif.Pattern.Props
import Verif.Fmt.Props
import Verif.Registry.Model

/-! # Lemmas about the string formatter -/

namespace Blackhole.Fmt

/-- `{}`. -/
theorem format_plain (fd : Spec → Nat → Except Err Str) (a : Arg) : format fd (ch! "{}") [a] = writeArg fd {} a := by
  have := C49_expand fd [a] [.field none none] false ⟨by simp, by simp, trivial⟩ ⟨by simp, trivial⟩ ⟨rfl, trivial⟩
  refine this.trans ?_
  simp only [expand, meaningOf]
  generalize h : writeArg fd {} a = r
  cases r <;> simp [Except.map, h]

/-- `{:spec}`. -/
theorem format_spec (fd : Spec → Nat → Except Err Str) (a : Arg) (t : SpecText) (hv : t.Valid) (hf : t.Fits a) :
    format fd (ch! "{:" ++ t.print ++ ch! "}") [a] = writeArg fd t.meaning a := by
  have := C49_expand fd [a] [.field none (some t)] false ⟨by simp, by simpa using hv, trivial⟩
    ⟨by intro b u hb hu; simp at hb hu; subst hb hu; exact hf, trivial⟩ ⟨rfl, trivial⟩
  rw [show ch! "{:" ++ t.print ++ ch! "}" = printAll [.field none (some t)] from by simp [printAll, Piece.print]]
  refine this.trans ?_
  simp only [expand, meaningOf]
  generalize h : writeArg fd t.meaning a = r
  cases r <;> simp [Except.map, h]

/-- `{:}`. -/
theorem format_colon (fd : Spec → Nat → Except Err Str) (a : Arg) : format fd (ch! "{:}") [a] = writeArg fd {} a := by
  have h1 : parseArg [a] (some 0) (ch! ":}") = .ok (a, some 1, ch! ":}") := rfl
  have h2 : parseSpec [a] a (some 1) (ch! "}") = .ok ({}, some 1, ch! "}") := rfl
  have h3 : formatField fd [a] a (some 1) (ch! ":}") = match writeArg fd {} a with
      | .error e => .error e
      | .ok out => .ok (out, some 1, []) := by
    unfold formatField
    rw [if_pos (show peek (ch! ":}") = ':' from rfl)]
    rw [show parseSpec [a] a (some 1) (ch! ":}").tail = .ok ({}, some 1, ch! "}") from h2]
    rfl
  have h4 : format fd (ch! "{:}") [a] = match field fd [a] (some 0) (ch! ":}") with
      | .error e => .error e
      | .ok (out, next, s) => (formatLoop fd [a] 2 next s).map (out ++ ·) := rfl
  rw [h4]
  unfold field
  rw [h1]
  simp only [h3]
  cases writeArg fd {} a with
  | error e => rfl
  | ok s => simp [formatLoop, Except.map]

end Blackhole.Fmt

namespace Blackhole.StringFmt

open Rec Pattern

theorem find_eq (name : Str) (pack : Pack) :
    find name pack = (pack.flatten.find? fun a => decide (a.1.text = name)).map (·.2) := by
  have hl : ∀ as : List (View × Value), findList name as = (as.find? fun a => decide (a.1.text = name)).map (·.2) := by
    intro as
    induction as with
    | nil => rfl
    | cons a as ih =>
      simp only [findList, List.find?_cons]
      by_cases h : a.1.text = name
      · simp [h]
      · simp [h, ih]
  induction pack with
  | nil => rfl
  | cons as pack ih =>
    simp only [find, hl, List.flatten_cons, List.find?_append, ih]
    cases as.find? fun a => decide (a.1.text = name) <;> rfl

theorem concat_append (as bs : List (Except Exc Str)) :
    concat (as ++ bs) = match concat as with
      | .error e => .error e
      | .ok s => match concat bs with
        | .error e => .error e
        | .ok t => .ok (s ++ t) := by
  induction as with
  | nil => cases h : concat bs <;> simp [concat, h]
  | cons a as ih =>
    cases a with
    | error e => rfl
    | ok s =>
      simp only [List.cons_append, concat, ih]
      cases concat as with
      | error e => rfl
      | ok t => cases concat bs <;> simp

theorem concat_single (a : Except Exc Str) : concat [a] = a := by
  cases a <;> simp [concat]

theorem concat_error {as : List (Except Exc Str)} {e : Exc} (h : .error e ∈ as) : ∃ e', concat as = .error e' := by
  induction as with
  | nil => cases h
  | cons a as ih =>
    cases a with
    | error e' => exact ⟨e', rfl⟩
    | ok s =>
      have h' : .error e ∈ as := by simpa using h
      obtain ⟨e', he⟩ := ih h'
      exact ⟨e', by simp [concat, he]⟩

theorem concat_ok {as : List (Except Exc Str)} {ss : List Str} (h : Both (fun a s => a = .ok s) as ss) :
    concat as = .ok ss.flatten := by
  induction h with
  | nil => rfl
  | cons h1 _ ih => subst h1; simp [concat, ih]

/-! ## The leftover placeholder -/

/-- The texts that follow a first one, each after a separator. -/
theorem evalList_ok {env : Env} {l : Leftover} {as : List (View × Value)} {ss : List Str}
    (h : Both (fun a s => concat (l.items.map (writeItem env a)) = .ok s) as ss) : ∀ out first,
    evalList env l as out first = .ok (out ++ (if first then l.separator.intercalate ss
      else (ss.map (l.separator ++ ·)).flatten), first && ss.isEmpty) := by
  induction h with
  | nil => intro out first; cases first <;> simp [evalList, List.intercalate]
  | @cons a s as ss h1 h2 ih =>
    intro out first
    simp only [evalList, h1, ih]
    cases first
    · simp [List.append_assoc]
    · cases ss with
      | nil => simp [List.intercalate]
      | cons t ss =>
        simp only [if_true, List.append_nil, Bool.false_eq_true, if_false, List.intercalate, List.intersperse,
          Bool.and_false, List.isEmpty_cons]
        congr 2
        have : ∀ (t : Str) (ss : List Str), (List.intersperse l.separator (t :: ss)).flatten
            = t ++ (ss.map (l.separator ++ ·)).flatten := by
          intro t ss
          induction ss generalizing t with
          | nil => simp
          | cons u us ih => simp [List.intersperse, ih]
        simp [this]

theorem evalPack_ok {env : Env} {l : Leftover} {pack : Pack} : ∀ {ss : List Str},
    Both (fun a s => concat (l.items.map (writeItem env a)) = .ok s) pack.flatten ss → ∀ out first,
    evalPack env l pack out first = .ok (out ++ (if first then l.separator.intercalate ss
      else (ss.map (l.separator ++ ·)).flatten), first && ss.isEmpty) := by
  have split : ∀ {R : View × Value → Str → Prop} {as bs : List (View × Value)} {ss : List Str}, Both R (as ++ bs) ss →
      ∃ s1 s2, ss = s1 ++ s2 ∧ Both R as s1 ∧ Both R bs s2 := by
    intro R as
    induction as with
    | nil => intro bs ss h; exact ⟨[], ss, rfl, .nil, h⟩
    | cons a as ih =>
      intro bs ss h
      cases h with
      | cons h1 h2 =>
        obtain ⟨s1, s2, rfl, h3, h4⟩ := ih h2
        exact ⟨_ :: s1, s2, rfl, .cons h1 h3, h4⟩
  induction pack with
  | nil =>
    intro ss h out first
    cases h
    cases first <;> simp [evalPack, List.intercalate]
  | cons as pack ih =>
    intro ss h out first
    rw [List.flatten_cons] at h
    obtain ⟨s1, s2, rfl, h1, h2⟩ := split h
    simp only [evalPack, evalList_ok h1, ih h2]
    cases first
    · simp [List.append_assoc]
    · cases s1 with
      | nil => simp [List.intercalate]
      | cons t s1 =>
        simp only [List.isEmpty_cons, Bool.and_false, Bool.false_eq_true, if_false, if_true, List.cons_append,
          Bool.false_and]
        have key : ∀ (t : Str) (ss : List Str), l.separator.intercalate (t :: ss)
            = t ++ (ss.map (l.separator ++ ·)).flatten := by
          intro t ss
          unfold List.intercalate
          induction ss generalizing t with
          | nil => simp
          | cons u us ih => simp [List.intersperse, ih]
        rw [key, key]
        simp

theorem eval_ok {env : Env} {l : Leftover} {pack : Pack} {ss : List Str}
    (h : Both (fun a s => concat (l.items.map (writeItem env a)) = .ok s) pack.flatten ss) :
    eval env l pack = .ok (l.separator.intercalate ss) := by
  simp [eval, evalPack_ok h]

/-! ## Formatters of single pieces -/

theorem make_ok {cd : Str → Option Nat} {pattern : Str} {sm : SevMap} {ts : List Token}
    (h : tokenize cd pattern = .ok ts) : Formatter.make cd pattern sm = .ok ⟨sm, ts⟩ := by
  simp only [Formatter.make, h]

theorem format_one (env : Env) (clock : Clock) (sm : SevMap) (t : Token) (r : Record) :
    Formatter.format env clock ⟨sm, [t]⟩ r = render env clock sm r t := by
  simp only [Formatter.format, List.map_cons, List.map_nil, concat_single]

theorem write_plain (env : Env) (a : Fmt.Arg) {s : Str} (h : Fmt.writeArg env.fd {} a = .ok s) :
    env.write (ch! "{}") a = .ok s := by
  simp only [Env.write, Fmt.format_plain, h]

theorem write_colon (env : Env) (a : Fmt.Arg) {s : Str} (h : Fmt.writeArg env.fd {} a = .ok s) :
    env.write (ch! "{:}") a = .ok s := by
  simp only [Env.write, Fmt.format_colon, h]

end Blackhole.StringFmt
