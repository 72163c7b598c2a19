import Verif.Json.Props

/-! # C54: the text of the JSON tree -/

namespace Blackhole.Json

open Rec StringFmt

/-! ## Strings -/

theorem hexChar_control : ∀ n : Fin 32,
    hexChar '0' '0' (hexDigit (n.val / 16)) (hexDigit (n.val % 16)) = some (Char.ofNat n.val) := by decide

theorem readString_char (c : Char) (s : Str) : readString (escapeChar c ++ s)
    = (readString s).map fun p => (c :: p.1, p.2) := by
  unfold escapeChar
  by_cases h1 : c = '"'
  · subst h1; rw [if_pos rfl]; simp [readString, simpleEscape]
  rw [if_neg h1]
  by_cases h2 : c = '\\'
  · subst h2; rw [if_pos rfl]; simp [readString, simpleEscape]
  rw [if_neg h2]
  by_cases h3 : c = '\x08'
  · subst h3; rw [if_pos rfl]; simp [readString, simpleEscape]
  rw [if_neg h3]
  by_cases h4 : c = '\x0c'
  · subst h4; rw [if_pos rfl]; simp [readString, simpleEscape]
  rw [if_neg h4]
  by_cases h5 : c = '\n'
  · subst h5; rw [if_pos rfl]; simp [readString, simpleEscape]
  rw [if_neg h5]
  by_cases h6 : c = '\r'
  · subst h6; rw [if_pos rfl]; simp [readString, simpleEscape]
  rw [if_neg h6]
  by_cases h7 : c = '\t'
  · subst h7; rw [if_pos rfl]; simp [readString, simpleEscape]
  rw [if_neg h7]
  by_cases h8 : c.toNat < 0x20
  · rw [if_pos h8]
    have := hexChar_control ⟨c.toNat, h8⟩
    simp only [Char.ofNat_toNat] at this
    simp only [List.cons_append, List.nil_append, readString, this, Option.bind_some]
  · rw [if_neg h8, List.cons_append, List.nil_append]
    rw [readString]
    · rw [if_neg h8]
    all_goals simp_all

theorem readString_quote (s rest : Str) : readString (s.flatMap escapeChar ++ '"' :: rest) = some (s, rest) := by
  induction s with
  | nil => simp [readString]
  | cons c s ih => rw [List.flatMap_cons, List.append_assoc, readString_char, ih]; rfl

/-! ## Numbers -/

/-- The rest does not continue a number. -/
def Stops (rest : Str) : Prop := ∀ c, rest.head? = some c → numeric c = false

theorem takeWhile_numeric {s rest : Str} (hs : ∀ c ∈ s, numeric c = true) (hr : Stops rest) :
    (s ++ rest).takeWhile numeric = s ∧ (s ++ rest).dropWhile numeric = rest := by
  induction s with
  | nil =>
    cases rest with
    | nil => exact ⟨rfl, rfl⟩
    | cons c rest =>
      have := hr c rfl
      simp [this]
  | cons c s ih =>
    have h1 := hs c List.mem_cons_self
    have h2 := ih fun c hc => hs c (List.mem_cons_of_mem _ hc)
    simp [h1, h2]

theorem numeric_first {c : Char} (h : numeric c = true) :
    c ≠ 'n' ∧ c ≠ 't' ∧ c ≠ 'f' ∧ c ≠ '"' ∧ c ≠ '[' ∧ c ≠ '{' := by
  refine ⟨?_, ?_, ?_, ?_, ?_, ?_⟩ <;> (rintro rfl; revert h; decide)

theorem readValue_number (n : Nat) {s rest : Str} (hne : s ≠ []) (hs : ∀ c ∈ s, numeric c = true) (hr : Stops rest) :
    readValue (n + 1) (s ++ rest) = some (.num s, rest) := by
  obtain ⟨h1, h2⟩ := takeWhile_numeric hs hr
  cases s with
  | nil => exact absurd rfl hne
  | cons c s =>
    obtain ⟨a, b, d, e, f, g⟩ := numeric_first (hs c List.mem_cons_self)
    rw [readValue]
    · rw [h1, h2, if_neg hne]
    all_goals simp_all

theorem decimal_numeric (z : Int) : decimal z ≠ [] ∧ ∀ c ∈ decimal z, numeric c = true := by
  have h : ∀ c ∈ Nat.toDigits 10 z.natAbs, numeric c = true := by
    intro c hc
    have := Fmt.toDigits_isDigit z.natAbs c hc
    have e : Fmt.isDigit c = c.isDigit := rfl
    rw [e] at this
    simp [numeric, this]
  unfold decimal
  split
  · refine ⟨by simp, ?_⟩
    intro c hc
    rcases List.mem_cons.mp hc with rfl | hc
    · decide
    · exact h c hc
  · exact ⟨Nat.toDigits_ne_nil, h⟩

/-! ## Trees -/

theorem writeLeaf_int (dtoa : Nat → Str) (z : Int) : writeLeaf dtoa (.int z) = decimal z := by
  rw [writeLeaf, decimal]
  split <;> rfl

theorem readValue_leaf {dtoa : Nat → Str} (hd : Numbers dtoa) (l : Leaf) (n : Nat) (rest : Str) (hr : Stops rest) :
    readValue (n + 1) (writeLeaf dtoa l ++ rest) = some (l.parsed dtoa, rest) := by
  cases l with
  | null => rfl
  | bool b => cases b <;> rfl
  | int z =>
    rw [writeLeaf_int]
    exact readValue_number n (decimal_numeric z).1 (decimal_numeric z).2 hr
  | double bits => exact readValue_number n (hd bits).1 (hd bits).2 hr
  | str s =>
    have e : writeLeaf dtoa (.str s) ++ rest = '"' :: (s.flatMap escapeChar ++ '"' :: rest) := by
      simp [writeLeaf, quote]
    rw [e, readValue, readString_quote]
    rfl

theorem write_first {dtoa : Nat → Str} (hd : Numbers dtoa) (t : Tree) : ∃ c s, write dtoa t = c :: s ∧ c ≠ ']' := by
  have hnum : ∀ s : Str, s ≠ [] → (∀ c ∈ s, numeric c = true) → ∃ c t, s = c :: t ∧ c ≠ ']' := by
    intro s h1 h2
    cases s with
    | nil => exact absurd rfl h1
    | cons c s =>
      refine ⟨c, s, rfl, ?_⟩
      rintro rfl
      have := h2 ']' List.mem_cons_self
      revert this
      decide
  cases t with
  | arr xs => exact ⟨'[', _, by rw [write], by decide⟩
  | obj ms => exact ⟨'{', _, by rw [write], by decide⟩
  | leaf l =>
    rw [write]
    cases l with
    | null => exact ⟨'n', _, rfl, by decide⟩
    | bool b => cases b <;> exact ⟨_, _, rfl, by decide⟩
    | int z => rw [writeLeaf_int]; exact hnum _ (decimal_numeric z).1 (decimal_numeric z).2
    | double bits => exact hnum _ (hd bits).1 (hd bits).2
    | str s => exact ⟨'"', _, rfl, by decide⟩

theorem stops_comma (s : Str) : Stops (',' :: s) := by
  intro c h
  simp only [List.head?_cons, Option.some.injEq] at h
  subst h
  decide

theorem stops_bracket (s : Str) : Stops (']' :: s) := by
  intro c h
  simp only [List.head?_cons, Option.some.injEq] at h
  subst h
  decide

theorem stops_brace (s : Str) : Stops ('}' :: s) := by
  intro c h
  simp only [List.head?_cons, Option.some.injEq] at h
  subst h
  decide

mutual

theorem readValue_tree {dtoa : Nat → Str} (hd : Numbers dtoa) : ∀ (t : Tree) (n : Nat) (rest : Str),
    (write dtoa t).length ≤ n → Stops rest → readValue (n + 1) (write dtoa t ++ rest) = some (t.parsed dtoa, rest)
  | .leaf l, n, rest, _, hr => by
    rw [write, Tree.parsed]
    exact readValue_leaf hd l n rest hr
  | .arr [], n, rest, _, _ => by
    rw [write, writeAll, Tree.parsed, parsedAll]
    rfl
  | .arr (x :: xs), n, rest, hn, _ => by
    rw [write, List.length_cons] at hn
    obtain ⟨m, rfl⟩ : ∃ m, n = m + 1 := ⟨n - 1, by omega⟩
    have ih := readItems_trees hd x xs m rest (by omega)
    obtain ⟨c, s, e, hc⟩ : ∃ c s, writeAll dtoa (x :: xs) = c :: s ∧ c ≠ ']' := by
      obtain ⟨c, s, e, hc⟩ := write_first hd x
      cases xs with
      | nil => exact ⟨c, s ++ [']'], by rw [writeAll, e]; rfl, hc⟩
      | cons y ys => exact ⟨c, s ++ ',' :: writeAll dtoa (y :: ys), by rw [writeAll, e]; rfl; simp, hc⟩
    rw [write, Tree.parsed, e, List.cons_append, List.cons_append, readValue]
    · rw [← List.cons_append, ← e, ih]
    · intro t h
      simp at h
      exact hc h.1
  | .obj [], n, rest, _, _ => by
    rw [write, writeMembers, Tree.parsed, parsedMembers]
    rfl
  | .obj ((k, t) :: ms), n, rest, hn, _ => by
    rw [write, List.length_cons] at hn
    obtain ⟨m, rfl⟩ : ∃ m, n = m + 1 := ⟨n - 1, by omega⟩
    have ih := readMembers_trees hd k t ms m rest (by omega)
    obtain ⟨s, e⟩ : ∃ s, writeMembers dtoa ((k, t) :: ms) = '"' :: s := by
      cases ms with
      | nil => exact ⟨_, by rw [writeMembers, quote]; rfl⟩
      | cons m ms => exact ⟨_, by rw [writeMembers, quote]; rfl; simp⟩
    rw [write, Tree.parsed, e, List.cons_append, List.cons_append, readValue]
    · rw [← List.cons_append, ← e, ih]
    · intro t h
      simp at h
termination_by _ n => n

theorem readItems_trees {dtoa : Nat → Str} (hd : Numbers dtoa) : ∀ (t : Tree) (ts : List Tree) (n : Nat) (rest : Str),
    (writeAll dtoa (t :: ts)).length ≤ n →
      readItems (n + 1) (writeAll dtoa (t :: ts) ++ rest) = some (parsedAll dtoa (t :: ts), rest)
  | t, [], n, rest, hn => by
    rw [writeAll, List.length_append, List.length_singleton] at hn
    obtain ⟨m, rfl⟩ : ∃ m, n = m + 1 := ⟨n - 1, by omega⟩
    have ih := readValue_tree hd t m (']' :: rest) (by omega) (stops_bracket rest)
    rw [writeAll, readItems, List.append_assoc, List.singleton_append]
    simp only [ih, parsedAll]
  | t, u :: us, n, rest, hn => by
    rw [writeAll, List.length_append, List.length_cons] at hn
    · obtain ⟨m, rfl⟩ : ∃ m, n = m + 1 := ⟨n - 1, by omega⟩
      have h1 := readValue_tree hd t m (',' :: (writeAll dtoa (u :: us) ++ rest)) (by omega) (stops_comma _)
      have h2 := readItems_trees hd u us m rest (by omega)
      rw [writeAll, readItems, List.append_assoc, List.cons_append, h1, parsedAll]
      · simp only [h2]
      · simp
    · simp
termination_by _ _ n => n

theorem readMembers_trees {dtoa : Nat → Str} (hd : Numbers dtoa) : ∀ (k : Str) (t : Tree) (ms : List (Str × Tree)) (n : Nat)
    (rest : Str), (writeMembers dtoa ((k, t) :: ms)).length ≤ n →
      readMembers (n + 1) (writeMembers dtoa ((k, t) :: ms) ++ rest) = some (parsedMembers dtoa ((k, t) :: ms), rest)
  | k, t, [], n, rest, hn => by
    rw [writeMembers] at hn
    simp only [List.length_append, List.length_cons, List.length_nil] at hn
    obtain ⟨m, rfl⟩ : ∃ m, n = m + 1 := ⟨n - 1, by omega⟩
    have ih := readValue_tree hd t m ('}' :: rest) (by omega) (stops_brace rest)
    have e : writeMembers dtoa [(k, t)] ++ rest
        = '"' :: (k.flatMap escapeChar ++ '"' :: (':' :: (write dtoa t ++ '}' :: rest))) := by
      rw [writeMembers, quote]; simp
    rw [e, readMembers, readString_quote]
    simp only [ih, parsedMembers]
  | k, t, (k', t') :: ms, n, rest, hn => by
    rw [writeMembers] at hn
    · simp only [List.length_append, List.length_cons] at hn
      obtain ⟨m, rfl⟩ : ∃ m, n = m + 1 := ⟨n - 1, by omega⟩
      have h1 := readValue_tree hd t m (',' :: (writeMembers dtoa ((k', t') :: ms) ++ rest)) (by omega) (stops_comma _)
      have h2 := readMembers_trees hd k' t' ms m rest (by omega)
      have e : writeMembers dtoa ((k, t) :: (k', t') :: ms) ++ rest = '"' :: (k.flatMap escapeChar ++ '"' ::
          (':' :: (write dtoa t ++ ',' :: (writeMembers dtoa ((k', t') :: ms) ++ rest)))) := by
        rw [writeMembers, quote]
        · simp
        · simp
      rw [e, readMembers, readString_quote]
      simp only [h1, h2, parsedMembers]
    · simp
termination_by _ _ _ n => n

end

/-- **C54.** If doubles are rendered as numbers, the text of every tree is JSON, and reading it gives the tree back. -/
theorem C54_read (dtoa : Nat → Str) (hd : Numbers dtoa) (t : Tree) (newline : Bool) :
    read (write dtoa t ++ if newline then ['\n'] else []) = some (t.parsed dtoa) := by
  unfold read
  have hs : Stops (if newline then ['\n'] else []) := by
    intro c h
    cases newline with
    | false => simp at h
    | true =>
      simp at h
      subst h
      decide
  rw [readValue_tree hd t _ _ (by simp) hs]
  cases newline <;> rfl

/-- So what is formatted can be read, whatever the configuration and the record. -/
theorem C54_format (env : Env) (clock : Clock) (dtoa : Nat → Str) (hd : Numbers dtoa) (d : Data) (r : Record) (s : Str)
    (h : format env clock dtoa d r = .ok s) :
    ∃ t, tree env clock d r = .ok t ∧ read s = some (t.parsed dtoa) := by
  unfold format at h
  cases ht : tree env clock d r with
  | error e => rw [ht] at h; cases h
  | ok t =>
    rw [ht] at h
    cases h
    exact ⟨t, rfl, C54_read dtoa hd t d.newline⟩

/-! ## One line -/

/-- No control characters. -/
def Visible (s : Str) : Prop := ∀ c ∈ s, 0x20 ≤ c.toNat

theorem Visible.append {s t : Str} (hs : Visible s) (ht : Visible t) : Visible (s ++ t) := by
  intro c hc
  rcases List.mem_append.mp hc with h | h
  · exact hs c h
  · exact ht c h

theorem Visible.cons {c : Char} {t : Str} (hc : 0x20 ≤ c.toNat) (ht : Visible t) : Visible (c :: t) := by
  intro x hx
  rcases List.mem_cons.mp hx with rfl | h
  · exact hc
  · exact ht x h

theorem visible_hex : ∀ n : Fin 16, 0x20 ≤ (hexDigit n.val).toNat := by decide

theorem visible_escape (c : Char) : Visible (escapeChar c) := by
  unfold escapeChar
  repeat' split
  all_goals intro x hx
  any_goals (simp only [List.mem_cons, List.not_mem_nil, or_false] at hx; rcases hx with rfl | rfl <;> decide)
  · rename_i h
    simp only [List.mem_cons, List.not_mem_nil, or_false] at hx
    rcases hx with rfl | rfl | rfl | rfl | rfl | rfl
    · decide
    · decide
    · decide
    · decide
    · exact visible_hex ⟨c.toNat / 16, by omega⟩
    · exact visible_hex ⟨c.toNat % 16, by omega⟩
  · simp only [List.mem_singleton] at hx
    subst hx
    omega

theorem visible_quote (s : Str) : Visible (quote s) := by
  unfold quote
  refine .append (.cons (by decide) ?_) (.cons (by decide) (by simp [Visible]))
  intro c hc
  obtain ⟨x, _, hx⟩ := List.mem_flatMap.mp hc
  exact visible_escape x c hx

theorem numeric_visible {c : Char} (h : numeric c = true) : 0x20 ≤ c.toNat := by
  unfold numeric at h
  simp only [Bool.or_eq_true, beq_iff_eq] at h
  rcases h with ((((h | rfl) | rfl) | rfl) | rfl) | rfl
  · unfold Char.isDigit at h
    simp only [Bool.and_eq_true, decide_eq_true_eq, ge_iff_le] at h
    have : '0'.val.toNat ≤ c.val.toNat := h.1
    have e : '0'.val.toNat = 48 := rfl
    have e2 : c.toNat = c.val.toNat := rfl
    omega
  all_goals decide

theorem visible_leaf {dtoa : Nat → Str} (hd : Numbers dtoa) (l : Leaf) : Visible (writeLeaf dtoa l) := by
  cases l with
  | null => show Visible (ch! "null"); unfold Visible; decide
  | bool b =>
    cases b
    · show Visible (ch! "false"); unfold Visible; decide
    · show Visible (ch! "true"); unfold Visible; decide
  | int z => rw [writeLeaf_int]; exact fun c hc => numeric_visible ((decimal_numeric z).2 c hc)
  | double bits => exact fun c hc => numeric_visible ((hd bits).2 c hc)
  | str s => exact visible_quote s

mutual

theorem visible_tree {dtoa : Nat → Str} (hd : Numbers dtoa) : ∀ t : Tree, Visible (write dtoa t)
  | .leaf l => by rw [write]; exact visible_leaf hd l
  | .arr xs => by rw [write]; exact .cons (by decide) (visible_all hd xs)
  | .obj ms => by rw [write]; exact .cons (by decide) (visible_members hd ms)

theorem visible_all {dtoa : Nat → Str} (hd : Numbers dtoa) : ∀ ts : List Tree, Visible (writeAll dtoa ts)
  | [] => by rw [writeAll]; exact .cons (by decide) (by simp [Visible])
  | [t] => by rw [writeAll]; exact .append (visible_tree hd t) (.cons (by decide) (by simp [Visible]))
  | t :: u :: us => by
    rw [writeAll]
    · exact .append (visible_tree hd t) (.cons (by decide) (visible_all hd (u :: us)))
    · simp

theorem visible_members {dtoa : Nat → Str} (hd : Numbers dtoa) : ∀ ms : List (Str × Tree), Visible (writeMembers dtoa ms)
  | [] => by rw [writeMembers]; exact .cons (by decide) (by simp [Visible])
  | [(k, t)] => by
    rw [writeMembers]
    exact .append (.append (visible_quote k) (.cons (by decide) (visible_tree hd t))) (.cons (by decide) (by simp [Visible]))
  | (k, t) :: (k', t') :: ms => by
    rw [writeMembers]
    · exact .append (.append (visible_quote k) (.cons (by decide) (visible_tree hd t)))
        (.cons (by decide) (visible_members hd ((k', t') :: ms)))
    · simp

end

/-- **C54.** What is formatted is a single line: it contains no control characters, except for a newline at the end if it
was asked for. -/
theorem C54_line (env : Env) (clock : Clock) (dtoa : Nat → Str) (hd : Numbers dtoa) (d : Data) (r : Record) (s : Str)
    (h : format env clock dtoa d r = .ok s) :
    ∃ line, s = line ++ (if d.newline then ['\n'] else []) ∧ ∀ c ∈ line, 0x20 ≤ c.toNat := by
  unfold format at h
  cases ht : tree env clock d r with
  | error e => rw [ht] at h; cases h
  | ok t =>
    rw [ht] at h
    cases h
    exact ⟨write dtoa t, rfl, visible_tree hd t⟩

/-- For example, a message with a quote, a newline and an escape character. -/
example : write (fun _ => []) (.obj [(ch! "a\"", .leaf (.str (ch! "x\ny\x1b"))), (ch! "n", .arr [.leaf (.int (-5)), .leaf .null])])
    = ch! "{\"a\\\"\":\"x\\ny\\u001B\",\"n\":[-5,null]}" := by
  decide

end Blackhole.Json
