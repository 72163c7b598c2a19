import Verif.Printf.Float

/-! # C90 `fmt::sprintf` prints what `sprintf` of the C standard prints -/

namespace Blackhole.Printf

open Fmt (Err Spec Next peek)
open FmtArgs (Val)

/-! ## Helpers -/

theorem means_written {lib : Double.Libc} {fd : Spec → Nat → Except Err Str} (hfd : Renders lib fd) {d : Directive}
    {w p : Option Int} {a : Val} {t : Str} (h : Means lib d w p a t) (hw : (w.getD 0).natAbs < 2 ^ 31)
    (hp : d.precision = none → p = none) :
    writeTyped fd (adjust (specOf d w p) a) (convert d.length.bits d.conv.print a) d.conv.print = .ok t := by
  cases h with
  | number hn hi ha => exact number_case fd d w p a _ hn hi ha
  | char hc hl _ hz _ hi => exact char_case fd d w p a _ hc hl hz hi
  | text hc _ _ hz _ ht => exact text_case fd d w p a _ hc hz ht
  | float hc _ _ hz hb hf hs => exact float_case hfd d w p _ hc hz hb hf hs hw
  | word hc _ hz hb hn => exact word_case hfd d w p _ _ _ hc hz hb hn hw
  | pointer hc _ hpr hfl _ hn => exact pointer_case fd d w p _ hc (by rw [hp hpr]; rfl) hfl hn

theorem numIs_small {args : List Val} {x : Option Num} {n m : Nat} {w : Option Int} (h : NumIs args x n w m) :
    (w.getD 0).natAbs < 2 ^ 31 := by
  cases h with
  | absent => simp
  | lit hk => simpa using hk
  | star _ h1 h2 => simp only [Option.getD_some]; omega

theorem numIs_absent {args : List Val} {pr : Option (Option Num)} {n m : Nat} {p : Option Int}
    (h : NumIs args (pr.getD none) n p m) (hp : pr = none) : p = none := by
  subst hp
  cases h
  rfl

theorem conv_ne_percent (d : Directive) (rest : Str) : peek (d.print.tail ++ rest) ≠ '%' := by
  simp only [Directive.print, List.tail_cons, List.append_assoc]
  intro h
  have dig : ∀ k (s : Str), peek (Nat.toDigits 10 k ++ s) ≠ '%' := by
    intro k s e
    rw [Fmt.peek_append _ Nat.toDigits_ne_nil] at e
    have := Fmt.peek_toDigits k
    rw [e] at this
    exact absurd this (by decide)
  revert h
  cases d.index with
  | some k => simp only [indexText, List.append_assoc]; exact dig _ _
  | none =>
    simp only [indexText, List.nil_append]
    cases d.flags with
    | cons f fs => cases f <;> simp [peek, Flag.print]
    | nil =>
      simp only [List.map_nil, List.nil_append]
      cases d.width with
      | some x =>
        cases x with
        | lit k => simp only [widthText, Num.print]; exact dig _ _
        | star => simp [widthText, Num.print, peek]
      | none =>
        simp only [widthText, List.nil_append]
        match d.precision with
        | some none => simp [precisionText, peek]
        | some (some x) => simp [precisionText, peek]
        | none =>
          simp only [precisionText, List.nil_append]
          cases d.length <;> cases d.conv <;> simp [peek, Len.print, Conv.print]

theorem toDigits_no_nul (k : Nat) : '\x00' ∉ Nat.toDigits 10 k := by
  intro h
  exact absurd (Fmt.toDigits_isDigit k _ h) (by decide)

theorem num_no_nul (x : Num) : '\x00' ∉ x.print := by
  cases x with
  | lit k => exact toDigits_no_nul k
  | star => decide

theorem directive_no_nul (d : Directive) : '\x00' ∉ d.print := by
  unfold Directive.print
  simp only [List.mem_cons, List.mem_append, List.mem_map, not_or]
  refine ⟨by decide, ?_, ?_, ?_, ?_, ?_, ?_⟩
  · cases d.index with
    | none => simp [indexText]
    | some k => simp [indexText, toDigits_no_nul]
  · rintro ⟨f, _, hf⟩
    cases f <;> simp [Flag.print] at hf
  · cases d.width with
    | none => simp [widthText]
    | some x => exact num_no_nul x
  · match d.precision with
    | none => simp [precisionText]
    | some none => decide
    | some (some x) => simp [precisionText, num_no_nul x]
  · cases d.length <;> decide
  · cases d.conv <;> decide

theorem prints_no_nul {lib : Double.Libc} {args : List Val} {manual : Bool} {n : Nat} {ps : List Piece} {out : Str}
    (h : Prints lib args manual n ps out) : '\x00' ∉ printAll ps := by
  induction h with
  | nil => simp [printAll]
  | text ht _ ih =>
    simp only [printAll, List.flatMap_cons, List.mem_append, not_or]
    refine ⟨?_, ih⟩
    simp only [Piece.print, List.mem_flatMap, not_exists, not_and]
    intro c hc
    split
    · decide
    · simp only [List.mem_singleton]
      rintro rfl
      exact ht hc
  | next _ _ _ _ _ _ _ _ ih =>
    simp only [printAll, List.flatMap_cons, List.mem_append, not_or]
    exact ⟨directive_no_nul _, ih⟩
  | position _ _ _ _ _ _ _ _ _ ih =>
    simp only [printAll, List.flatMap_cons, List.mem_append, not_or]
    exact ⟨directive_no_nul _, ih⟩

theorem text_loop (fd : Spec → Nat → Except Err Str) (args : List Val) (next : Next) (t rest : Str) :
    ∀ fuel, (Piece.print (.text t) ++ rest).length ≤ fuel →
      ∃ fuel', rest.length ≤ fuel' ∧ formatLoop fd args fuel next (Piece.print (.text t) ++ rest)
        = (formatLoop fd args fuel' next rest).map (t ++ ·) := by
  have hid : ∀ r : Except Err Str, r.map ([] ++ ·) = r := by intro r; cases r <;> rfl
  induction t with
  | nil => intro fuel h; exact ⟨fuel, h, (hid _).symm⟩
  | cons c t ih =>
    intro fuel h
    have e : Piece.print (.text (c :: t)) = (if c = '%' then ['%', '%'] else [c]) ++ Piece.print (.text t) := by
      simp [Piece.print]
    rw [e] at h ⊢
    have hcomp : ∀ (r : Except Err Str), (r.map (t ++ ·)).map (c :: ·) = r.map (c :: t ++ ·) := by
      intro r; cases r <;> rfl
    by_cases hc : c = '%'
    · subst hc
      simp only [if_true, List.cons_append, List.nil_append, List.length_cons] at h ⊢
      obtain ⟨fuel, rfl⟩ : ∃ k, fuel = k + 1 := ⟨fuel - 1, by omega⟩
      obtain ⟨f', hf', hl⟩ := ih fuel (by omega)
      refine ⟨f', hf', ?_⟩
      rw [formatLoop, if_neg (by decide), if_pos (by rfl), List.tail_cons, hl, hcomp]
      rfl
    · simp only [hc, if_false, List.cons_append, List.nil_append, List.length_cons] at h ⊢
      obtain ⟨fuel, rfl⟩ : ∃ k, fuel = k + 1 := ⟨fuel - 1, by omega⟩
      obtain ⟨f', hf', hl⟩ := ih fuel (by omega)
      refine ⟨f', hf', ?_⟩
      rw [formatLoop, if_pos hc, hl, hcomp]
      rfl

theorem directive_loop (fd : Spec → Nat → Except Err Str) (args : List Val) (next next' : Next) (d : Directive)
    (rest t : Str) (h : directive fd args next (d.print.tail ++ rest) = .ok (t, next', rest)) :
    ∀ fuel, (d.print ++ rest).length ≤ fuel →
      ∃ fuel', rest.length ≤ fuel' ∧ formatLoop fd args fuel next (d.print ++ rest)
        = (formatLoop fd args fuel' next' rest).map (t ++ ·) := by
  intro fuel hf
  have e : d.print ++ rest = '%' :: (d.print.tail ++ rest) := rfl
  rw [e] at hf ⊢
  simp only [List.length_cons, List.length_append] at hf
  obtain ⟨fuel, rfl⟩ : ∃ k, fuel = k + 1 := ⟨fuel - 1, by omega⟩
  refine ⟨fuel, by omega, ?_⟩
  rw [formatLoop, if_neg (by decide), if_neg (conv_ne_percent d rest), h]

theorem numIs_used {args : List Val} {x : Option Num} {n m : Nat} {w : Option Int} (h : NumIs args x n w m) :
    m = n + if x = some .star then 1 else 0 := by
  cases h <;> simp

theorem loop_prefix {lib : Double.Libc} {fd : Spec → Nat → Except Err Str} (hfd : Renders lib fd) (args : List Val) {manual : Bool} {n : Nat} {ps : List Piece}
    {out : Str} (rest : Str) (h : Prints lib args manual n ps out) : ∀ (next : Next) (fuel : Nat),
      (manual = false → next = some n) → (manual = true → next = some 0 ∨ next = none) →
      (printAll ps ++ rest).length ≤ fuel → ∃ next' fuel', rest.length ≤ fuel'
        ∧ (manual = false → next' = some (n + used ps)) ∧ (manual = true → next' = some 0 ∨ next' = none)
        ∧ (manual = true → 0 < used ps ∨ next = none → next' = none)
        ∧ formatLoop fd args fuel next (printAll ps ++ rest) = (formatLoop fd args fuel' next' rest).map (out ++ ·) := by
  have hcomp : ∀ (r : Except Err Str) (t out : Str), (r.map (out ++ ·)).map (t ++ ·) = r.map (t ++ out ++ ·) := by
    intro r t out; cases r <;> simp [Except.map]
  induction h with
  | nil =>
    intro next fuel h1 h2 hf
    refine ⟨next, fuel, hf, h1, h2, ?_, ?_⟩
    · rintro _ (h | h)
      · simp [used] at h
      · exact h
    · have hid : ∀ r : Except Err Str, r = r.map ([] ++ ·) := by intro r; cases r <;> rfl
      exact hid _
  | @text n t out ps ht _ ih =>
    intro next fuel h1 h2 hf
    have e : printAll (.text t :: ps) ++ rest = Piece.print (.text t) ++ (printAll ps ++ rest) := by simp [printAll]
    have hu : used (.text t :: ps) = used ps := by simp [used, Piece.uses]
    rw [e] at hf ⊢
    obtain ⟨f', hf', hl⟩ := text_loop fd args next t (printAll ps ++ rest) fuel hf
    obtain ⟨next', fuel', h3, h4, h5, h6, h7⟩ := ih next f' h1 h2 hf'
    exact ⟨next', fuel', h3, by rw [hu]; exact h4, h5, by rw [hu]; exact h6, by rw [hl, h7, hcomp]⟩
  | @next n n1 n2 d w p a t out ps hman hidx hw0 hw hp ha hmeans _ ih =>
    intro next fuel h1 h2 hf
    have hn := h1 hman
    subst hn
    have e : printAll (.directive d :: ps) ++ rest = d.print ++ (printAll ps ++ rest) := by simp [printAll, Piece.print]
    have hu : used (.directive d :: ps) = d.uses + used ps := by simp [used, Piece.uses]
    have hn2 : n2 + 1 = n + d.uses := by
      have h1 := numIs_used hw
      have h2 := numIs_used hp
      have h3 : (d.precision.getD none = some .star) ↔ d.precision = some (some .star) := by
        cases d.precision <;> simp
      simp only [h3] at h2
      unfold Directive.uses
      omega
    rw [e] at hf ⊢
    have hd := directive_eq fd args d (printAll ps ++ rest) hw0 (by intro k hk; rw [hidx] at hk; cases hk)
      hw (next := some n) (next1 := some n1) (.inl ⟨rfl, rfl⟩) hp (next2 := some n2) (.inl ⟨rfl, rfl⟩)
      (v := a) (next3 := some (n2 + 1)) (by intro s; rw [hidx]; simp only [getArg, ha])
    rw [means_written hfd hmeans (numIs_small hw) (numIs_absent hp)] at hd
    obtain ⟨f', hf', hl⟩ := directive_loop fd args _ _ d (printAll ps ++ rest) t hd fuel hf
    obtain ⟨next', fuel', h3, h4, h5, h6, h7⟩ :=
      ih (some (n2 + 1)) f' (fun _ => rfl) (by rw [hman]; intro h; cases h) hf'
    refine ⟨next', fuel', h3, ?_, h5, (by rw [hman]; intro h; cases h), by rw [hl, h7, hcomp]⟩
    intro hm
    rw [h4 hm, hu, hn2, Nat.add_assoc]
  | @position n k d w p a t out ps hman hidx hk hw0 hw hp ha hmeans _ ih =>
    intro next fuel h1 h2 hf
    have e : printAll (.directive d :: ps) ++ rest = d.print ++ (printAll ps ++ rest) := by simp [printAll, Piece.print]
    rw [e] at hf ⊢
    have hd := directive_eq fd args d (printAll ps ++ rest) hw0 (by intro j hj; rw [hidx] at hj; cases hj; exact hk)
      hw (next := next) (next1 := next) (.inr ⟨rfl, rfl⟩) hp (next2 := next) (.inr ⟨rfl, rfl⟩)
      (v := a) (next3 := none) (by
        intro s
        rw [hidx]
        rcases h2 hman with rfl | rfl <;> simp [getArg, ha])
    rw [means_written hfd hmeans (numIs_small hw) (numIs_absent hp)] at hd
    obtain ⟨f', hf', hl⟩ := directive_loop fd args _ _ d (printAll ps ++ rest) t hd fuel hf
    obtain ⟨next', fuel', h3, h4, h5, h6, h7⟩ :=
      ih none f' (by rw [hman]; intro h; cases h) (fun _ => .inr rfl) hf'
    exact ⟨next', fuel', h3, (by rw [hman]; intro h; cases h), h5, fun hm _ => h6 hm (.inr rfl), by rw [hl, h7, hcomp]⟩

theorem loop_spec {lib : Double.Libc} {fd : Spec → Nat → Except Err Str} (hfd : Renders lib fd) (args : List Val) {manual : Bool} {n : Nat} {ps : List Piece}
    {out : Str} (h : Prints lib args manual n ps out) (next : Next) (fuel : Nat)
    (h1 : manual = false → next = some n) (h2 : manual = true → next = some 0 ∨ next = none)
    (hf : (printAll ps).length ≤ fuel) : formatLoop fd args fuel next (printAll ps) = .ok out := by
  obtain ⟨next', fuel', _, _, _, _, h7⟩ := loop_prefix hfd args [] h next fuel h1 h2 (by simpa using hf)
  rw [List.append_nil] at h7
  rw [h7]
  cases fuel' <;> simp [formatLoop, Except.map]

/-- One directive, of a floating-point number. -/
theorem sprintf_double (fd : Spec → Nat → Except Err Str) (d : Directive) (bits : Nat) (w p : Option Int)
    (hi : d.index = none) (hw0 : d.width ≠ some (.lit 0)) (hw : NumIs [.arg (.double bits)] d.width 0 w 0)
    (hp : NumIs [.arg (.double bits)] (d.precision.getD none) 0 p 0) (s : Str)
    (h : fd { adjust (specOf d w p) (.arg (.double bits)) with type := some d.conv.print } bits = .ok s) :
    sprintf fd d.print [.arg (.double bits)] = .ok s := by
  unfold sprintf
  rw [Config.cstr_plain (directive_no_nul d)]
  have hd := directive_eq fd [.arg (.double bits)] d [] hw0 (by intro k hk; rw [hi] at hk; cases hk)
    hw (next := some 0) (next1 := some 0) (.inl ⟨rfl, rfl⟩) hp (next2 := some 0) (.inl ⟨rfl, rfl⟩)
    (v := .arg (.double bits)) (next3 := some 1) (by intro s; rw [hi]; rfl)
  rw [writeTyped_double, h] at hd
  obtain ⟨f', _, hl⟩ := directive_loop fd _ _ _ d [] s hd d.print.length (by simp)
  rw [List.append_nil] at hl
  simp only
  rw [hl]
  cases f' <;> simp [formatLoop, Except.map]

/-! ## The property -/

/-- Whatever text and directives a format string consists of, with flags in any
order, widths and precisions (numbers or `*`), lengths and positions: if the arguments have the types that C asks for,
`fmt::sprintf` returns what C's `sprintf` prints. Missing are the conversions that `Means` excludes, in which it does
not (see below), and wide characters and `long double`. -/
theorem C90_text_partial (lib : Double.Libc) (hlib : lib.Sane) (args : List Val) (manual : Bool) (ps : List Piece) (out : Str)
    (h : Prints lib args manual 0 ps out) : sprintf (doubleText lib) (printAll ps) args = .ok out := by
  unfold sprintf
  rw [Config.cstr_plain (prints_no_nul h)]
  exact loop_spec (doubleText_renders lib hlib) args h (some 0) _ (fun _ => rfl) (fun _ => .inl rfl) (Nat.le_refl _)

/-- `"[%#08x]100%%[%-*.3d][%5.2s]%c"` with 255, -8, 7, "abc" and 'z'. -/
example (lib : Double.Libc) : ∃ ps args, printAll ps = ch! "[%#08x]100%%[%-*.3d][%5.2s]%c"
    ∧ args = [.arg (.int 255), .arg (.int (-8)), .arg (.int 7), .arg (.cstr (ch! "abc")), .arg (.char 'z')]
    ∧ Prints lib args false 0 ps (ch! "[0x0000ff]100%[007     ][   ab]z") := by
  refine ⟨[.text ['['], .directive { flags := [.hash, .zero], width := some (.lit 8), conv := .x }, .text (ch! "]100%["),
    .directive { flags := [.minus], width := some .star, precision := some (some (.lit 3)), conv := .d },
    .text (ch! "]["), .directive { width := some (.lit 5), precision := some (some (.lit 2)), conv := .s }, .text [']'],
    .directive { conv := .c }], _, rfl, rfl, ?_⟩
  refine .text (t := ['[']) (by decide) (.next (t := ch! "0x0000ff") rfl rfl (by decide) (.lit (by decide)) .absent rfl ?_ ?_)
  · exact .number (z := 255) rfl (.int (by decide) (by decide))
      ⟨by decide, by decide, by decide, by decide, by decide, by decide⟩
  refine .text (t := ch! "]100%[") (by decide) (.next (t := ch! "007     ") rfl rfl (by decide)
    (.star (z := -8) rfl (by decide) (by decide)) (.lit (by decide)) rfl ?_ ?_)
  · exact .number (z := 7) rfl (.int (by decide) (by decide))
      ⟨by decide, by decide, by decide, by decide, by decide, by decide⟩
  refine .text (t := ch! "][") (by decide) (.next (t := ch! "   ab") rfl rfl (by decide) (.lit (by decide))
    (.lit (by decide)) rfl ?_ ?_)
  · exact .text (s := ch! "abc") rfl rfl (by decide) (by decide) (by decide) (.cstr (by decide))
  refine .text (t := [']']) (by decide) (.next (t := ['z']) (out := []) rfl rfl (by decide) .absent .absent rfl ?_ .nil)
  exact .char (z := Fmt.codeOf 'z') rfl rfl rfl (by decide) (by decide) (.char (by decide))

/-- `"%2$s %1$ld"`. -/
example (lib : Double.Libc) : Prints lib [.arg (.long (-5)), .arg (.str (ch! "x") ['\x00'])] true 0
    [.directive { index := some 2, conv := .s }, .text [' '], .directive { index := some 1, length := .l, conv := .d }]
    (ch! "x -5") := by
  have h : Means lib { index := some 1, length := .l, conv := .d } none none (.arg (.long (-5))) (ch! "-5") :=
    Means.number (d := { index := some 1, length := .l, conv := .d }) (w := none) (p := none) (z := -5) rfl
      (show IsInt 64 (-5) _ from .long (by decide) (by decide))
      ⟨by decide, by decide, by decide, by decide, by decide, by decide⟩
  refine .position (k := 1) (t := ['x']) rfl rfl (by decide) (by decide) .absent .absent rfl
    (.text rfl rfl (by decide) (by decide) (by decide) .string) ?_
  exact .text (t := [' ']) (by decide) (.position (k := 0) (t := ch! "-5") (out := []) rfl rfl (by decide) (by decide)
    .absent .absent rfl h .nil)

/-- `"%+08.2f|%-6E|%12p"` with -1.5, infinity and an address, where the C library writes 1.5 as `1.50`. -/
example (lib : Double.Libc) (h : lib false (some 2) 'f' (1023 * 2 ^ 52 + 2 ^ 51) = ch! "1.50") :
    ∃ ps args, printAll ps = ch! "%+08.2f|%-6E|%12p"
      ∧ args = [.arg (.double (2 ^ 63 + 1023 * 2 ^ 52 + 2 ^ 51)), .arg (.double (2047 * 2 ^ 52)), .ptr 3735928559]
      ∧ Prints lib args false 0 ps (ch! "-0001.50|INF   |  0xdeadbeef") := by
  refine ⟨[.directive { flags := [.plus, .zero], width := some (.lit 8), precision := some (some (.lit 2)), conv := .f },
    .text ['|'], .directive { flags := [.minus], width := some (.lit 6), conv := .E }, .text ['|'],
    .directive { width := some (.lit 12), conv := .p }], _, rfl, rfl, ?_⟩
  have hm : magnitudeText lib { flags := [.plus, .zero], width := some (.lit 8), precision := some (some (.lit 2)), conv := .f }
      (some 2) (2 ^ 63 + 1023 * 2 ^ 52 + 2 ^ 51) = ch! "1.50" := h
  refine .next (t := ch! "-0001.50") rfl rfl (by decide) (.lit (by decide)) (.lit (by decide)) rfl ?_ ?_
  · have := Means.float (lib := lib) (d := { flags := [.plus, .zero], width := some (.lit 8), precision := some (some (.lit 2)), conv := .f })
      (w := some 8) (p := some 2) (bits := 2 ^ 63 + 1023 * 2 ^ 52 + 2 ^ 51) rfl (.inl rfl) (by decide) (by decide) (by decide) (by unfold Double.Finite; decide)
      (by rw [hm]; decide)
    unfold floatText at this
    rw [hm] at this
    exact this
  refine .text (t := ['|']) (by decide) (.next (t := ch! "INF   ") rfl rfl (by decide) (.lit (by decide)) .absent rfl ?_ ?_)
  · exact .word (small := ch! "inf") (big := ch! "INF") rfl (.inl rfl) (by decide) (by decide)
      (.inr ⟨by unfold Double.Infinite; decide, rfl, rfl⟩)
  refine .text (t := ['|']) (by decide) (.next (t := ch! "  0xdeadbeef") (out := []) rfl rfl (by decide) (.lit (by decide)) .absent rfl
    ?_ .nil)
  exact .pointer (n := 3735928559) rfl rfl rfl (by decide) (by decide) (by decide)

/-! ## Where they differ -/

/-- The flag `-` does not override `0`: `%-05d` pads with zeros, C prints `42` and three spaces. -/
theorem C90_fails_zero_left (fd : Spec → Nat → Except Err Str) :
    sprintf fd (ch! "%-05d") [.arg (.int 42)] = .ok (ch! "00042")
      ∧ numberText { flags := [.minus, .zero], width := some (.lit 5), conv := .d } (some 5) none 42 = ch! "42   " :=
  ⟨rfl, by decide⟩

/-- A precision does not override `0`: `%06.3d` fills with zeros, C with spaces. -/
theorem C90_fails_zero_precision (fd : Spec → Nat → Except Err Str) :
    sprintf fd (ch! "%06.3d") [.arg (.int (-42))] = .ok (ch! "00-042")
      ∧ numberText { flags := [.zero], width := some (.lit 6), precision := some (some (.lit 3)), conv := .d } (some 6)
          (some 3) (-42) = ch! "  -042" :=
  ⟨rfl, by decide⟩

/-- A dot alone is a precision of zero in C; here it is none. -/
theorem C90_fails_dot (fd : Spec → Nat → Except Err Str) :
    sprintf fd (ch! "%.s") [.arg (.cstr (ch! "abc"))] = .ok (ch! "abc")
      ∧ field false false 0 [] ((ch! "abc").take 0) = [] :=
  ⟨rfl, by decide⟩

/-- Zero with precision zero prints a digit, C prints nothing. -/
theorem C90_fails_empty (fd : Spec → Nat → Except Err Str) :
    sprintf fd (ch! "%.0d") [.arg (.int 0)] = .ok (ch! "0")
      ∧ numberText { precision := some (some (.lit 0)), conv := .d } none (some 0) 0 = [] :=
  ⟨rfl, by decide⟩

/-- Unsigned conversions print a sign, C's do not. -/
theorem C90_fails_sign (fd : Spec → Nat → Except Err Str) :
    sprintf fd (ch! "%+u % x") [.arg (.uint 42), .arg (.uint 42)] = .ok (ch! "+42  2a")
      ∧ numberText { flags := [.plus], conv := .u } none none 42 = ch! "42"
      ∧ numberText { flags := [.space], conv := .x } none none 42 = ch! "2a" :=
  ⟨rfl, by decide, by decide⟩

/-- The prefix depends on the argument before its conversion: C does not print one before zero. -/
theorem C90_fails_hash (fd : Spec → Nat → Except Err Str) :
    sprintf fd (ch! "%#hhx") [.arg (.int 256)] = .ok (ch! "0x0")
      ∧ numberText { flags := [.hash], length := .hh, conv := .x } none none (converted .hh .x 256) = ch! "0" :=
  ⟨rfl, by decide⟩

/-- Arguments of a smaller type than the length says, which are undefined in C, are not extended: -1 is printed as
4294967295 with `%ld`, although -1 fits a `long`. -/
theorem C90_fails_long (fd : Spec → Nat → Except Err Str) :
    sprintf fd (ch! "%ld %lld %d") [.arg (.int (-1)), .arg (.int (-1)), .arg (.int (-1))]
      = .ok (ch! "4294967295 4294967295 -1") := rfl

/-- The flag `0` puts zeros behind infinity and NaN; C ignores it. -/
theorem C90_fails_word (lib : Double.Libc) (hlib : lib.Sane) :
    sprintf (doubleText lib) (ch! "%06f") [.arg (.double (2047 * 2 ^ 52))] = .ok (ch! "inf000")
      ∧ wordText { flags := [.zero], width := some (.lit 6), conv := .f } (some 6) (2047 * 2 ^ 52) (ch! "inf") (ch! "INF")
        = ch! "   inf" := by
  refine ⟨?_, by decide⟩
  refine sprintf_double _ { flags := [.zero], width := some (.lit 6), conv := .f } _ (some 6) none rfl (by decide)
    (.lit (by decide)) .absent _ ?_
  rw [(doubleText_renders lib hlib).word _ _ (ch! "inf") (ch! "INF") (known_float _ .f rfl) (by decide) (by decide)
    (.inr ⟨by unfold Double.Infinite; decide, rfl, rfl⟩)]
  rfl

/-- The zeros of the flag `0` stand before the `0x` of a hexadecimal number, in C behind it. -/
theorem C90_fails_hex_float (lib : Double.Libc) (hlib : lib.Sane) (h : lib false none 'a' (1023 * 2 ^ 52) = ch! "0x1p+0") :
    sprintf (doubleText lib) (ch! "%010a") [.arg (.double (1023 * 2 ^ 52))] = .ok (ch! "00000x1p+0")
      ∧ floatText lib { flags := [.zero], width := some (.lit 10), conv := .a } (some 10) none (1023 * 2 ^ 52)
        = ch! "0x00001p+0" := by
  constructor
  · refine sprintf_double _ { flags := [.zero], width := some (.lit 10), conv := .a } _ (some 10) none rfl (by decide)
      (.lit (by decide)) .absent _ ?_
    show doubleText lib { align := .numeric, fill := '0', width := 10, type := some 'a' } (1023 * 2 ^ 52) = _
    have hd : Double.digitsOf lib { align := .numeric, fill := '0', width := 10, type := some 'a' } (1023 * 2 ^ 52)
        = ch! "0x1p+0" := h
    rw [(doubleText_renders lib hlib).finite _ _ ⟨.inr ⟨'a', by decide, rfl⟩, by decide, by unfold Double.Finite; decide,
      by decide, (by rw [hd]; decide), (by intro h; cases h), (by intro h; cases h)⟩]
    unfold Double.field
    rw [hd]
    rfl
  · have hm : magnitudeText lib { flags := [.zero], width := some (.lit 10), conv := .a } none (1023 * 2 ^ 52)
        = ch! "0x1p+0" := h
    unfold floatText
    rw [hm]
    decide

/-- A null pointer is an address like others; glibc prints `(nil)`. -/
theorem C90_fails_null (fd : Spec → Nat → Except Err Str) : sprintf fd (ch! "%p") [.ptr 0] = .ok (ch! "0x0") := rfl

/-- A character converted with the length `L` is printed twice, as a number and as itself. -/
theorem C90_fails_twice (fd : Spec → Nat → Except Err Str) :
    sprintf fd (ch! "%Ld") [.arg (.char 'A')] = .ok (ch! "65A") := rfl

end Blackhole.Printf
