import Verif.Dev.Spec
import Verif.Date.Clock
import Verif.Fmt.Props
import Verif.Fmt.Text

/-! # Properties of the handler for development: C68 -/

namespace Blackhole.Dev

open Rec Console

/-! ## Lemmas -/

theorem name_text (env : Env) (v : View) : name env v = .ok (ch! "    " ++ sixteen v.text ++ ch! ": ") := by
  let t : Fmt.SpecText := { align := some (none, .left), width := some 16, precision := some 16 }
  have ht : t.Valid := by constructor <;> simp [t, Fmt.SpecText.print]
  have hexp := Fmt.C49_expand env.fd [.str v.text ['\x00']] [.text (ch! "    "), .field none (some t), .text (ch! ": ")] false
    ⟨by decide, by simp, (by intro u hu; have : u = t := by simpa using hu.symm
                             subst this; exact ht), by decide, trivial⟩
    ⟨by
      intro a u ha hu
      have h1 : u = t := by simpa using hu.symm
      have h2 : a = .str v.text ['\x00'] := by simpa using ha.symm
      subst h1 h2
      constructor <;> simp [t, Fmt.Arg.isInteger], trivial⟩ ⟨rfl, trivial⟩
  have hstr : Fmt.IsText (.str v.text ['\x00']) v.text := by
    cases h : v.text with
    | nil => exact .terminated (s := []) (by simp)
    | cons c s => exact .str (by simp)
  have hw := Fmt.C52_text env.fd t.meaning (.str v.text ['\x00']) v.text hstr (.inl rfl)
  have hfield : Fmt.textField t.meaning v.text = sixteen v.text := by
    simp only [Fmt.textField, Fmt.cutText, t, Fmt.SpecText.meaning, sixteen, Bool.false_eq_true, if_false, List.length_take]
    congr 2
    omega
  rw [hfield] at hw
  have : Fmt.expand env.fd [.str v.text ['\x00']] 0 [.text (ch! "    "), .field none (some t), .text (ch! ": ")]
      = .ok (ch! "    " ++ sixteen v.text ++ ch! ": ") := by
    simp [Fmt.expand, Fmt.meaningOf, hw, Except.map]
  rw [this] at hexp
  unfold name Env.write
  have hp : ch! "    {:<16.16}: " = Fmt.printAll [.text (ch! "    "), .field none (some t), .text (ch! ": ")] := rfl
  rw [hp, hexp]

theorem value_shows {dtoa : Nat → Str} {v : Value} {s : Str} (h : Shows dtoa v s) : value dtoa v = .ok s := by
  cases h with
  | null => rfl
  | yes => rfl
  | no => rfl
  | @natural n =>
    simp only [value, showInt]
    rw [if_neg (by omega)]
    rfl
  | @negative n hn =>
    simp only [value, showInt]
    rw [if_pos (by omega)]
    simp
  | unsigned => rfl
  | double => rfl
  | string => rfl
  | function => rfl

theorem printAll_append (a b : List (Except Exc Str)) (s : Str) (h : printAll a = (s, none)) :
    printAll (a ++ b) = (s ++ (printAll b).1, (printAll b).2) := by
  induction a generalizing s with
  | nil => cases h; rfl
  | cons x a ih =>
    cases x with
    | error e => cases h
    | ok t =>
      simp only [printAll, Prod.mk.injEq] at h
      have := ih (printAll a).1 (by rw [← h.2])
      rw [List.cons_append, printAll, this, ← h.1]
      simp

theorem letter_eq (z : Int) : (severity z).2 = letter z := by
  unfold severity letter
  split <;> simp_all

/-- The attributes, as far as they can be shown. -/
theorem attributes_text (env : Env) (dtoa : Nat → Str) {attrs : List (View × Value)} {shown : List (Str × Str)}
    (h : Both (fun (a : View × Value) (s : Str × Str) => s.1 = a.1.text ∧ Shows dtoa a.2 s.2) attrs shown) :
    printAll (attrs.flatMap (attrPieces env dtoa false))
      = (shown.flatMap fun a => ch! "\n    " ++ sixteen a.1 ++ ch! ": " ++ a.2, none) := by
  induction h with
  | nil => rfl
  | @cons a s attrs shown h _ ih =>
    obtain ⟨h1, h2⟩ := h
    rw [List.flatMap_cons, printAll_append _ _ (ch! "\n    " ++ sixteen s.1 ++ ch! ": " ++ s.2), ih, List.flatMap_cons]
    simp [attrPieces, printAll, name_text, value_shows h2, colorize, h1]

theorem head_text (env : Env) (libc : Date.Libc) (hgm : Date.GmtimeOk libc.toLibc)
    (conv : Str → Char → Time.Tm → Except UB Str) (hl : Date.Itemwise libc.strftime conv) (hc : Date.Conversions conv)
    (r : Record) (ns : Nat) (hr : r.timestamp = ns) (hns : ns < 2 ^ 63) :
    timestamp env libc r.timestamp = .ok (Date.timeText ns) := by
  unfold timestamp
  rw [hr]
  exact Date.C56_libc env.fd libc hgm conv hl hc ns hns

/-! ## C68 -/

/-- **C68.** If the standard output is not a terminal, the handler prints for a record from 1970 on exactly the line that
is described by `plain`: the time in UTC, the letter of the severity, thread and process, the message, and each attribute,
in order, on its own line. -/
theorem C68_text (env : Env) (libc : Date.Libc) (hgm : Date.GmtimeOk libc.toLibc)
    (conv : Str → Char → Time.Tm → Except UB Str) (hl : Date.Itemwise libc.strftime conv) (hc : Date.Conversions conv)
    (dtoa : Nat → Str) (r : Record) (ns : Nat) (hr : r.timestamp = ns) (hns : ns < 2 ^ 63) (shown : List (Str × Str))
    (hshown : Both (fun (a : View × Value) (s : Str × Str) => s.1 = a.1.text ∧ Shows dtoa a.2 s.2) r.pack.flatten shown) :
    handle env libc dtoa false r = (plain ns r.severity r.tid env.pid r.message.text shown, none) := by
  unfold handle pieces
  rw [List.append_assoc, printAll_append _ _ (Date.timeText ns ++ ch! " " ++ [letter r.severity] ++ ch! " "
    ++ Nat.toDigits 10 r.tid ++ ch! "/" ++ Nat.toDigits 10 env.pid ++ ch! " - " ++ r.message.text)]
  · rw [printAll_append _ _ _ (attributes_text env dtoa hshown)]
    simp [printAll, plain]
  · simp [head_text env libc hgm conv hl hc r ns hr hns, printAll, colorize, letter_eq]

/-- **C68 fails for exceptions.** If the function of an attribute throws, what was printed so far stays: the line is not
finished, and what is printed next comes behind it. -/
theorem C68_fails_exception (env : Env) (libc : Date.Libc) (hgm : Date.GmtimeOk libc.toLibc)
    (conv : Str → Char → Time.Tm → Except UB Str) (hl : Date.Itemwise libc.strftime conv) (hc : Date.Conversions conv)
    (dtoa : Nat → Str) (r : Record) (ns : Nat) (hr : r.timestamp = ns) (hns : ns < 2 ^ 63)
    (before after : List (View × Value)) (v : View) (id : Nat)
    (hpack : r.pack.flatten = before ++ (v, .function (.error id)) :: after) (shown : List (Str × Str))
    (hshown : Both (fun (a : View × Value) (s : Str × Str) => s.1 = a.1.text ∧ Shows dtoa a.2 s.2) before shown) :
    ∃ out, handle env libc dtoa false r = (out, some (.user id))
      ∧ out ++ ch! "\n" = plain ns r.severity r.tid env.pid r.message.text (shown ++ [(v.text, [])])
      ∧ out.getLast? = some ' ' := by
  refine ⟨Date.timeText ns ++ ch! " " ++ [letter r.severity] ++ ch! " "
    ++ Nat.toDigits 10 r.tid ++ ch! "/" ++ Nat.toDigits 10 env.pid ++ ch! " - " ++ r.message.text
    ++ (shown.flatMap fun a => ch! "\n    " ++ sixteen a.1 ++ ch! ": " ++ a.2)
    ++ (ch! "\n    " ++ sixteen v.text ++ ch! ": "), ?_, ?_, ?_⟩
  · unfold handle pieces
    rw [List.append_assoc, printAll_append _ _ (Date.timeText ns ++ ch! " " ++ [letter r.severity] ++ ch! " "
      ++ Nat.toDigits 10 r.tid ++ ch! "/" ++ Nat.toDigits 10 env.pid ++ ch! " - " ++ r.message.text)]
    · rw [hpack, List.flatMap_append, List.append_assoc (List.flatMap _ before), printAll_append _ _ _ (attributes_text env dtoa hshown)]
      simp [printAll, attrPieces, name_text, value, colorize]
    · simp [head_text env libc hgm conv hl hc r ns hr hns, printAll, colorize, letter_eq]
  · simp [plain]
  · have : ch! "\n    " ++ sixteen v.text ++ ch! ": " = (ch! "\n    " ++ sixteen v.text ++ ch! ":") ++ [' '] := by simp
    rw [this, ← List.append_assoc, List.getLast?_concat]

/-! ### Colours -/

theorem visible_seq (c : Color) (rest : Str) : visible false (c.seq ++ rest) = visible false rest := by
  have hdigits : ∀ (l rest : Str), 'm' ∉ l → visible true (l ++ rest) = visible true rest := by
    intro l
    induction l with
    | nil => intros; rfl
    | cons x l ih =>
      intro rest hx
      have h1 : x ≠ 'm' := by rintro rfl; simp at hx
      simp only [List.cons_append, visible]
      rw [show (x != 'm') = true by simp [h1]]
      exact ih rest (by simp at hx; exact hx.2)
  have hm : 'm' ∉ ch! "[" ++ showInt c.code := by
    have := Date.digits_no 'm' (by decide) c.code.natAbs
    unfold showInt
    split <;> simp [this]
  have : c.seq ++ rest = '\x1b' :: ((ch! "[" ++ showInt c.code) ++ ('m' :: rest)) := by
    simp [Color.seq]
  rw [this, visible, if_pos rfl, hdigits _ _ hm]
  simp [visible]

theorem visible_plain (s rest : Str) (h : '\x1b' ∉ s) : visible false (s ++ rest) = s ++ visible false rest := by
  induction s with
  | nil => rfl
  | cons x s ih =>
    simp at h
    rw [List.cons_append, visible, if_neg (Ne.symm h.1), ih h.2]
    rfl

theorem inForce_seq (c : Color) (before rest : Str) : inForce before none (c.seq ++ rest) = inForce c.seq none rest := by
  have hdigits : ∀ (l acc rest : Str), 'm' ∉ l → inForce before (some acc) (l ++ rest) = inForce before (some (acc ++ l)) rest := by
    intro l
    induction l with
    | nil => intros; simp
    | cons x l ih =>
      intro acc rest hx
      have h1 : x ≠ 'm' := by rintro rfl; simp at hx
      rw [List.cons_append, inForce, if_neg h1, ih _ rest (by simp at hx; exact hx.2)]
      simp
  have hm : 'm' ∉ ch! "[" ++ showInt c.code := by
    have := Date.digits_no 'm' (by decide) c.code.natAbs
    unfold showInt
    split <;> simp [this]
  have : c.seq ++ rest = '\x1b' :: ((ch! "[" ++ showInt c.code) ++ ('m' :: rest)) := by
    simp [Color.seq]
  rw [this, inForce, if_pos rfl, hdigits _ _ _ hm, inForce, if_pos rfl]
  simp [Color.seq]

theorem inForce_plain (s before rest : Str) (h : '\x1b' ∉ s) : inForce before none (s ++ rest) = inForce before none rest := by
  induction s with
  | nil => rfl
  | cons x s ih =>
    simp at h
    rw [List.cons_append, inForce, if_neg (Ne.symm h.1), ih h.2]

/-- The same pieces with and without colours. -/
inductive Painted : List (Except Exc Str) → List (Except Exc Str) → Prop
  | nil : Painted [] []
  | same {x : Except Exc Str} {a b : List (Except Exc Str)} : Painted a b → Painted (x :: a) (x :: b)
  | color {c : Color} {a b : List (Except Exc Str)} : Painted a b → Painted (.ok c.seq :: a) (.ok [] :: b)

theorem Painted.append {a b a' b' : List (Except Exc Str)} (h : Painted a b) (h' : Painted a' b') :
    Painted (a ++ a') (b ++ b') := by
  induction h with
  | nil => exact h'
  | same _ ih => exact .same ih
  | color _ ih => exact .color ih

/-- A painted text: what is seen, and the colour at the end. -/
theorem Painted.visible {a b : List (Except Exc Str)} (h : Painted a b) (hesc : '\x1b' ∉ (printAll b).1) :
    Dev.visible false (printAll a).1 = (printAll b).1 ∧ (printAll a).2 = (printAll b).2 := by
  induction h with
  | nil => exact ⟨rfl, rfl⟩
  | @same x a b _ ih =>
    cases x with
    | error e => exact ⟨rfl, rfl⟩
    | ok s =>
      simp only [printAll, List.mem_append, not_or] at hesc
      obtain ⟨h1, h2⟩ := ih hesc.2
      exact ⟨by simp only [printAll]; rw [visible_plain s _ hesc.1, h1], h2⟩
  | @color c a b _ ih =>
    obtain ⟨h1, h2⟩ := ih (by simpa [printAll] using hesc)
    exact ⟨by simp only [printAll]; rw [visible_seq, h1]; rfl, h2⟩

theorem attr_painted (env : Env) (dtoa : Nat → Str) (attrs : List (View × Value)) :
    Painted (attrs.flatMap (attrPieces env dtoa true)) (attrs.flatMap (attrPieces env dtoa false)) := by
  induction attrs with
  | nil => exact .nil
  | cons a attrs ih =>
    rw [List.flatMap_cons, List.flatMap_cons]
    exact .append (.same (.color (.same (.color (.same .nil))))) ih

/-- The two colours that come in one piece, one after the other. -/
theorem printAll_split (s t : Str) (rest : List (Except Exc Str)) :
    printAll (.ok (s ++ t) :: rest) = printAll (.ok s :: .ok t :: rest) := by simp [printAll]

/-- `pieces` with the two colours apart. -/
def apart (env : Env) (libc : Date.Libc) (dtoa : Nat → Str) (tty : Bool) (r : Record) : List (Except Exc Str) :=
  [.ok (colorize tty Color.gray), timestamp env libc r.timestamp, .ok (ch! " "),
   .ok (colorize tty (severity r.severity).1), .ok [(severity r.severity).2],
   .ok (ch! " " ++ Nat.toDigits 10 r.tid ++ ch! "/" ++ Nat.toDigits 10 env.pid),
   .ok (colorize tty Color.reset), .ok (colorize tty Color.gray), .ok (ch! " - "), .ok (colorize tty Color.reset),
   .ok r.message.text, .ok (colorize tty Color.reset)]
  ++ r.pack.flatten.flatMap (attrPieces env dtoa tty) ++ [.ok (ch! "\n")]

theorem handle_apart (env : Env) (libc : Date.Libc) (dtoa : Nat → Str) (tty : Bool) (r : Record) :
    handle env libc dtoa tty r = printAll (apart env libc dtoa tty r) := by
  unfold handle pieces apart
  cases timestamp env libc r.timestamp with
  | error e => simp [printAll]
  | ok s => simp [printAll]

/-- **C68, colours.** On a terminal the same is seen as elsewhere: without its escape sequences the text is the same, and
so is the exception. (As long as the record itself has no escape characters.) -/
theorem C68_visible (env : Env) (libc : Date.Libc) (dtoa : Nat → Str) (r : Record)
    (hesc : '\x1b' ∉ (handle env libc dtoa false r).1) :
    visible false (handle env libc dtoa true r).1 = (handle env libc dtoa false r).1
    ∧ (handle env libc dtoa true r).2 = (handle env libc dtoa false r).2 := by
  rw [handle_apart, handle_apart] at *
  refine Painted.visible ?_ hesc
  unfold apart
  exact .append (.append (.color (.same (.same (.color (.same (.same (.color (.color (.same (.color (.same (.color .nil))))))))))))
    (attr_painted env dtoa _)) (.same .nil)

/-- Painted pieces before which the colour `x` is in force and behind which it is `y`. -/
inductive Ends : Str → List (Except Exc Str) → List (Except Exc Str) → Str → Prop
  | nil {x : Str} : Ends x [] [] x
  | stop {x : Str} {e : Exc} {a b : List (Except Exc Str)} : Ends x (.error e :: a) (.error e :: b) x
  | same {x y s : Str} {a b : List (Except Exc Str)} : Ends x a b y → Ends x (.ok s :: a) (.ok s :: b) y
  | color {x y : Str} {c : Color} {a b : List (Except Exc Str)} : Ends c.seq a b y → Ends x (.ok c.seq :: a) (.ok [] :: b) y

theorem Ends.inForce {x y : Str} {a b : List (Except Exc Str)} (h : Ends x a b y) (hesc : '\x1b' ∉ (printAll b).1) :
    Dev.inForce x none (printAll a).1 = y := by
  induction h with
  | nil => rfl
  | stop => rfl
  | same _ ih =>
    simp only [printAll, List.mem_append, not_or] at hesc
    simp only [printAll]
    rw [inForce_plain _ _ _ hesc.1, ih hesc.2]
  | color _ ih =>
    simp only [printAll]
    rw [inForce_seq, ih (by simpa [printAll] using hesc)]

theorem attrs_ends (env : Env) (dtoa : Nat → Str) (attrs : List (View × Value)) :
    Ends Color.reset.seq (attrs.flatMap (attrPieces env dtoa true) ++ [.ok (ch! "\n")])
      (attrs.flatMap (attrPieces env dtoa false) ++ [.ok (ch! "\n")]) Color.reset.seq := by
  induction attrs with
  | nil => exact .same .nil
  | cons a attrs ih =>
    rw [List.flatMap_cons, List.flatMap_cons, List.append_assoc, List.append_assoc]
    simp only [attrPieces, name_text, List.cons_append, List.nil_append]
    refine .same (.color (.same (.color ?_)))
    cases value dtoa a.2 with
    | error e => exact .stop
    | ok s => exact .same ih

/-- **C68, the terminal is left as it was.** Whatever colours are used, and even if the function of an attribute throws,
the last escape sequence that is printed is the reset. -/
theorem C68_reset (env : Env) (libc : Date.Libc) (hgm : Date.GmtimeOk libc.toLibc)
    (conv : Str → Char → Time.Tm → Except UB Str) (hl : Date.Itemwise libc.strftime conv) (hc : Date.Conversions conv)
    (dtoa : Nat → Str) (r : Record) (ns : Nat) (hr : r.timestamp = ns) (hns : ns < 2 ^ 63)
    (hesc : '\x1b' ∉ (handle env libc dtoa false r).1) (before : Str) :
    inForce before none (handle env libc dtoa true r).1 = ch! "\x1b[0m" := by
  have ht := head_text env libc hgm conv hl hc r ns hr hns
  rw [handle_apart] at hesc ⊢
  unfold apart at hesc ⊢
  rw [ht] at hesc ⊢
  refine Ends.inForce (y := Color.reset.seq) ?_ hesc
  rw [List.append_assoc, List.append_assoc]
  exact .color (.same (.same (.color (.same (.same (.color (.color (.same (.color (.same (.color
    (attrs_ends env dtoa _))))))))))))

end Blackhole.Dev
