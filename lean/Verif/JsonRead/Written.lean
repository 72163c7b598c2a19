import Verif.JsonRead.Props
import Verif.Json.Text
import Verif.Fmt.Parse

/-! # What the JSON formatter writes is a text of the grammar: C54 -/

namespace Blackhole.JsonRead

open Config
open Json (Leaf Tree write writeAll writeMembers writeLeaf quote escapeChar hexDigit)

/-- The document that a value is. -/
def leafDoc : Leaf → Config.Json
  | .null => .null
  | .bool b => .bool b
  | .int z => .int z
  | .double bits => .double bits
  | .str s => .str s

mutual

/-- The document that a tree is. -/
def treeDoc : Tree → Config.Json
  | .leaf l => leafDoc l
  | .arr ts => .arr (treeDocs ts)
  | .obj ms => .obj (memberDocs ms)

def treeDocs : List Tree → List Config.Json
  | [] => []
  | t :: ts => treeDoc t :: treeDocs ts

def memberDocs : List (Str × Tree) → List (Str × Config.Json)
  | [] => []
  | (k, t) :: ms => (k, treeDoc t) :: memberDocs ms

end

mutual

/-- All integers in a tree are integers of 64 bits, as those of attributes are. -/
def TreeFits : Tree → Prop
  | .leaf (.int z) => Fits z
  | .leaf _ => True
  | .arr ts => TreesFit ts
  | .obj ms => MembersFit ms

def TreesFit : List Tree → Prop
  | [] => True
  | t :: ts => TreeFits t ∧ TreesFit ts

def MembersFit : List (Str × Tree) → Prop
  | [] => True
  | (_, t) :: ms => TreeFits t ∧ MembersFit ms

end

theorem chars_escape (c : Char) {s t : Str} (h : Chars s t) : Chars (c :: s) (escapeChar c ++ t) := by
  unfold escapeChar
  split
  · rename_i hc; subst hc; exact .short (by decide) h
  split
  · rename_i hc; subst hc; exact .short (by decide) h
  split
  · rename_i hc; subst hc; exact .short (by decide) h
  split
  · rename_i hc; subst hc; exact .short (by decide) h
  split
  · rename_i hc; subst hc; exact .short (by decide) h
  split
  · rename_i hc; subst hc; exact .short (by decide) h
  split
  · rename_i hc; subst hc; exact .short (by decide) h
  rename_i h1 h2 _ _ _ _ _
  split
  · rename_i hl
    have hex : ∀ n : Fin 32, ((ch! "0123456789ABCDEF")[n.val / 16]? = some (hexDigit (n.val / 16))) ∧
        ((ch! "0123456789ABCDEF")[n.val % 16]? = some (hexDigit (n.val % 16))) := by decide
    have hx := hex ⟨c.toNat, hl⟩
    have hh : Hex ['0', '0', hexDigit (c.toNat / 16), hexDigit (c.toNat % 16)]
        (4096 * 0 + 256 * 0 + 16 * (c.toNat / 16) + c.toNat % 16) :=
      .digits (.inr rfl) (.inr rfl) (.inr hx.1) (.inr hx.2)
    have e : 4096 * 0 + 256 * 0 + 16 * (c.toNat / 16) + c.toNat % 16 = c.toNat := by omega
    rw [e] at hh
    have := Chars.unit hh (.inl (by omega)) h
    rw [Char.ofNat_toNat, ← Char.ofNat_toNat c, ← utf8_bytes (.inl (by omega)), utf8, if_pos (by omega),
      Char.ofNat_toNat] at this
    exact this
  · exact .plain h1 h2 (by omega) h

theorem chars_quote (s : Str) : Chars s (s.flatMap escapeChar) := by
  induction s with
  | nil => exact .nil
  | cons c s ih => exact chars_escape c ih

theorem whole_toDigits (n : Nat) : Whole (Nat.toDigits 10 n) := by
  refine ⟨⟨?_, ?_⟩, ?_⟩
  · have : 0 < (Nat.toDigits 10 n).length := Nat.length_toDigits_pos
    intro h
    rw [h] at this
    exact absurd this (by decide)
  · intro c hc
    have := Nat.isDigit_of_mem_toDigits (by decide) (by decide) hc
    refine (digit_iff c).1 ?_
    simp only [Char.isDigit, Bool.and_eq_true, decide_eq_true_eq] at this
    exact decide_eq_true this
  · intro h
    by_cases hn : n = 0
    · subst hn; rfl
    · have hz := Fmt.peek_toDigits_ne_zero n (by omega)
      revert h hz
      cases Nat.toDigits 10 n with
      | nil => intro h; cases h
      | cons c r =>
        intro h hz
        simp only [List.head?_cons, Option.some.injEq] at h
        exact absurd h hz

theorem decimalOf_toDigits (n : Nat) : decimalOf (Nat.toDigits 10 n) = n := Nat.ofDigitChars_ten_toDigits

variable {toDouble : Str → Option Nat} {dtoa : Nat → Str}

theorem reads_leaf (hd : ∀ bits, Reads toDouble (.value (.double bits)) (dtoa bits)) (l : Leaf) (hf : TreeFits (.leaf l)) :
    Reads toDouble (.value (leafDoc l)) (writeLeaf dtoa l) := by
  cases l with
  | null => exact .null
  | bool b =>
    cases b with
    | true => exact .true
    | false => exact .false
  | int z =>
    have hz : integerOf (decide (z < 0)) (Nat.toDigits 10 z.natAbs) = z := by
      unfold integerOf
      rw [decimalOf_toDigits]
      by_cases h : z < 0
      · rw [if_pos (by simpa using h)]; omega
      · rw [if_neg (by simpa using h)]; omega
    have := Reads.int (toDouble := toDouble) (neg := decide (z < 0)) (whole_toDigits z.natAbs) (by rw [hz]; exact hf)
    rw [hz] at this
    simp only [decide_eq_true_eq] at this
    exact this
  | double bits => exact hd bits
  | str s => exact .str (chars_quote s)

mutual

theorem reads_tree (hd : ∀ bits, Reads toDouble (.value (.double bits)) (dtoa bits)) : ∀ t : Tree, TreeFits t →
    Reads toDouble (.value (treeDoc t)) (write dtoa t)
  | .leaf l, hf => by
    rw [write, treeDoc]
    exact reads_leaf hd l hf
  | .arr [], _ => by
    rw [write, writeAll, treeDoc, treeDocs]
    exact .noElements .none
  | .arr (t :: ts), hf => by
    obtain ⟨x, hx, hr⟩ := reads_trees hd (t :: ts) (by rw [TreeFits] at hf; exact hf) (by simp)
    rw [write, hx, treeDoc]
    exact .arr .none hr
  | .obj [], _ => by
    rw [write, writeMembers, treeDoc, memberDocs]
    exact .noMembers .none
  | .obj ((k, t) :: ms), hf => by
    obtain ⟨x, hx, hr⟩ := reads_members hd ((k, t) :: ms) (by rw [TreeFits] at hf; exact hf) (by simp)
    rw [write, hx, treeDoc]
    exact .obj .none hr

theorem reads_trees (hd : ∀ bits, Reads toDouble (.value (.double bits)) (dtoa bits)) : ∀ ts : List Tree,
    TreesFit ts → ts ≠ [] → ∃ x, writeAll dtoa ts = x ++ [']'] ∧ Reads toDouble (.elements (treeDocs ts)) x
  | [], _, hne => absurd rfl hne
  | [t], hf, _ => by
    rw [TreesFit] at hf
    refine ⟨write dtoa t ++ [], by rw [writeAll, List.append_nil], ?_⟩
    rw [treeDocs, treeDocs]
    exact .lastElement (reads_tree hd t hf.1) .none
  | t :: u :: ts, hf, _ => by
    rw [TreesFit] at hf
    obtain ⟨x, hx, hr⟩ := reads_trees hd (u :: ts) hf.2 (by simp)
    refine ⟨write dtoa t ++ [] ++ ',' :: ([] ++ x), ?_, by
      rw [treeDocs]; exact .element (reads_tree hd t hf.1) .none .none hr⟩
    rw [writeAll, hx]
    · simp
    · exact fun h => by cases h

theorem reads_members (hd : ∀ bits, Reads toDouble (.value (.double bits)) (dtoa bits)) :
    ∀ ms : List (Str × Tree), MembersFit ms → ms ≠ [] →
      ∃ x, writeMembers dtoa ms = x ++ ['}'] ∧ Reads toDouble (.members (memberDocs ms)) x
  | [], _, hne => absurd rfl hne
  | [(k, t)], hf, _ => by
    rw [MembersFit] at hf
    refine ⟨_, ?_, by rw [memberDocs, memberDocs]; exact .lastMember (chars_quote k) .none .none (reads_tree hd t hf.1) .none⟩
    rw [writeMembers, quote]
    simp
  | (k, t) :: (k', u) :: ms, hf, _ => by
    rw [MembersFit] at hf
    obtain ⟨x, hx, hr⟩ := reads_members hd ((k', u) :: ms) hf.2 (by simp)
    refine ⟨_, ?_, by rw [memberDocs]; exact .member (chars_quote k) .none .none (reads_tree hd t hf.1) .none .none hr⟩
    rw [writeMembers, hx, quote]
    · simp
    · exact fun h => by cases h

end

/-- **C54, the grammar.** What the JSON formatter writes for a tree is a text of the grammar of RFC 8259 that stands for
this tree, if doubles are written as numbers that stand for them and integers have 64 bits. -/
theorem C54_grammar (hd : ∀ bits, Reads toDouble (.value (.double bits)) (dtoa bits)) (t : Tree) (hf : TreeFits t)
    (newline : Bool) : Text toDouble (treeDoc t) (write dtoa t ++ if newline then ['\n'] else []) := by
  refine ⟨[], write dtoa t, _, rfl, .none, reads_tree hd t hf, .gap ?_⟩
  cases newline with
  | true => exact .space (by decide) .none
  | false => exact .none

/-- **C54, round trip.** So the parser of configurations reads back what the formatter writes. -/
theorem C54_parser (hd : ∀ bits, Reads toDouble (.value (.double bits)) (dtoa bits)) (t : Tree) (hf : TreeFits t)
    (newline : Bool) :
    initialize_ toDouble (write dtoa t ++ if newline then ['\n'] else []) = .ok (treeDoc t) :=
  C100_reads toDouble _ _ (C54_grammar hd t hf newline)

/-- Doubles written as `0.` and a digit for each of the bits: the hypothesis can be met. -/
example : ∀ bits, Reads (fun s => some (s.length - 3)) (.value (.double bits)) (ch! "0.5" ++ List.replicate bits '0') := by
  intro bits
  have := Reads.double (toDouble := fun s => some (s.length - 3)) (neg := false) (ds := ['0'])
    (f := '.' :: ('5' :: List.replicate bits '0')) (e := []) (bits := bits)
    ⟨⟨by simp, by simp [Digit]⟩, fun _ => rfl⟩
    (.some ⟨by simp, by intro c hc; rcases List.mem_cons.1 hc with rfl | hc
                        · simp [Digit]
                        · rw [(List.mem_replicate.1 hc).2]; simp [Digit]⟩)
    .none (.inl (by simp)) (by simp)
  simpa using this

example : TreeFits (.obj [(ch! "a", .arr [.leaf (.int (-5)), .leaf (.double 3)]), (ch! "b", .leaf (.str (ch! "x\ny")))]) := by
  simp only [TreeFits, TreesFit, MembersFit, Fits]
  decide

end Blackhole.JsonRead
