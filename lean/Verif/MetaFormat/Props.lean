import Verif.MetaFormat.Lemmas

/-! # C41 Compile-time patterns -/

namespace Blackhole.MetaFormat

open Fmt (Piece Arg)

/-- The compile-time parser accepts exactly the patterns that consist of text with doubled braces and of `{}`: a lone
brace, a position, a name or a specification does not compile. -/
theorem C41_accepts (p : Str) : (∃ f, make p = .ok f) ↔ ∃ ps, Plain ps ∧ Fmt.printAll ps = p := by
  constructor
  · rintro ⟨f, h⟩
    unfold make at h
    cases hc : literalCount p with
    | error e => simp [hc] at h
    | ok n =>
      obtain ⟨cs, h1, h2⟩ := countFrom_ok 1 p n hc
      clear h hc
      induction cs generalizing p with
      | nil => exact ⟨[], trivial, h2⟩
      | cons c cs ih =>
        obtain ⟨ps, h3, h4⟩ := ih (printCells cs) (fun x hx => h1 x (by simp [hx])) rfl
        have hc := h1 c (by simp)
        cases c with
        | chr c =>
          refine ⟨.text [c] :: ps, h3, ?_⟩
          rw [Fmt.printAll, h4, ← h2]
          simp [Piece.print, Fmt.escapeText, hc.1, hc.2, printCells, Cell.print]
        | brace c =>
          refine ⟨.text [c] :: ps, h3, ?_⟩
          rw [Fmt.printAll, h4, ← h2]
          rcases hc with rfl | rfl <;> simp [Piece.print, Fmt.escapeText, printCells, Cell.print]
        | hole =>
          refine ⟨.field none none :: ps, ⟨rfl, rfl, h3⟩, ?_⟩
          rw [Fmt.printAll, h4, ← h2]
          rfl
  · rintro ⟨ps, h1, rfl⟩
    exact ⟨_, by rw [← printCells_of ps h1]; exact make_cells _ (ok_cells ps)⟩

/-- A call compiles exactly if it has at least as many arguments as the pattern has fields and doubled braces. -/
theorem C41_compiles (ps : List Piece) (h : Plain ps) (f : Formatter) (hf : make (Fmt.printAll ps) = .ok f) (k : Nat) :
    compiles f k = true ↔ fields ps + braces ps ≤ k := by
  rw [← printCells_of ps h, make_cells _ (ok_cells ps)] at hf
  cases hf
  rw [compiles_cells, specials_of, decide_eq_true_iff]

/-- What a call writes, argument by argument. -/
theorem call_eq (fd : Fmt.Spec → Nat → Except Fmt.Err Str) (ps : List Piece) (h : Plain ps) (f : Formatter)
    (hf : make (Fmt.printAll ps) = .ok f) (args : List Arg) (hk : fields ps + braces ps ≤ args.length) :
    f.call fd args = expandCells fd (cellsOf ps) args := by
  unfold Formatter.call
  rw [if_pos ((C41_compiles ps h f hf _).2 hk)]
  rw [← printCells_of ps h, make_cells _ (ok_cells ps)] at hf
  cases hf
  rw [format_cells fd _ _ _ (by rw [specials_of]; exact hk), prepend_nil]

theorem substitute_cells (fd : Fmt.Spec → Nat → Except Fmt.Err Str) (ps : List Piece) :
    ∀ (args : List Arg) (texts : List Str), Both (fun a t => stream fd a = .ok t) args texts →
    fields ps ≤ args.length → ∃ s, substitute ps texts = some s ∧ expandCells fd (cellsOf ps) args = .ok s := by
  induction ps with
  | nil => intro args texts _ _; exact ⟨[], by cases texts <;> rfl, rfl⟩
  | cons p ps ih =>
    intro args texts hb hk
    cases p with
    | text s =>
      obtain ⟨r, h1, h2⟩ := ih args texts hb hk
      refine ⟨s ++ r, ?_, ?_⟩
      · cases texts <;> simp [substitute, h1]
      · rw [cellsOf, expandCells_text, h2]; rfl
    | field pos spec =>
      cases hb with
      | nil => simp [fields] at hk
      | cons h hb =>
        rename_i a t args texts
        simp only [fields, List.length_cons] at hk
        obtain ⟨r, h1, h2⟩ := ih args texts hb (by omega)
        refine ⟨t ++ r, by simp [substitute, h1], ?_⟩
        rw [cellsOf, expandCells, h, h2]; rfl

/-- Integers, characters and strings are written as what they stand for. -/
theorem C41_argument (fd : Fmt.Spec → Nat → Except Fmt.Err Str) (a : Arg) (t : Str) (h : Stands a t) :
    stream fd a = .ok t := by
  have unsigned (bits : Nat) (hb : bits = 32 ∨ bits = 64) (n : Nat) (h : n < 2 ^ bits) :
      Fmt.writeInt bits false {} n = .ok (Nat.toDigits 10 n) := by
    have := Fmt.writeInt_eq bits false hb {} (n : Int)
    rcases hb with rfl | rfl
    · simpa [Fmt.intDigits, Fmt.layout, Fmt.signText, show ¬ (n : Int) < 0 by omega] using this (by omega) (by omega)
    · simpa [Fmt.intDigits, Fmt.layout, Fmt.signText, show ¬ (n : Int) < 0 by omega] using this (by omega) (by omega)
  cases h with
  | int h1 h2 => exact writeDecimal_eq 32 (.inl rfl) _ h1 h2
  | uint h => exact unsigned 32 (.inl rfl) _ h
  | long h1 h2 => exact writeDecimal_eq 64 (.inr rfl) _ h1 h2
  | ulong h => exact unsigned 64 (.inr rfl) _ h
  | char c => rfl
  | cstr h => exact congrArg _ (Config.cstr_plain h)
  | str s behind => rfl
  | strNull => rfl

/-- A call that compiles writes the pattern with its doubled braces single and with the arguments, in order, in the
place of the fields; further arguments are ignored. The property asks for this with as many arguments as fields; the
code needs one more argument for every doubled brace. -/
theorem C41_substitutes_partial (fd : Fmt.Spec → Nat → Except Fmt.Err Str) (ps : List Piece) (h : Plain ps) (f : Formatter)
    (hf : make (Fmt.printAll ps) = .ok f) (args : List Arg) (texts : List Str) (ha : Both Stands args texts)
    (hk : fields ps + braces ps ≤ args.length) :
    ∃ s, substitute ps texts = some s ∧ f.call fd args = .ok s := by
  have hb : Both (fun a t => stream fd a = .ok t) args texts := by
    clear hk
    induction ha with
    | nil => exact .nil
    | cons h _ ih => exact .cons (C41_argument fd _ _ h) ih
  obtain ⟨s, h1, h2⟩ := substitute_cells fd ps args texts hb (by omega)
  exact ⟨s, h1, by rw [call_eq fd ps h f hf args hk, h2]⟩

/-- The arguments that both ways of formatting are expected to agree on: not a `bool`, no empty view into a longer
string, no null string. -/
inductive Common : Arg → Prop
  | stands {a t} (h : Stands a t) (h1 : ∀ s behind, a = .str s behind → s ≠ [] ∨ behind.head? = some '\x00')
      (h2 : a ≠ .strNull) : Common a
  | double (bits : Nat) : Common (.double bits)

/-- On these arguments, both write the same. -/
theorem C41_same_argument (fd : Fmt.Spec → Nat → Except Fmt.Err Str) (a : Arg) (h : Common a) :
    stream fd a = Fmt.writeArg fd {} a := by
  cases h with
  | double bits => rfl
  | @stands _ t h h1 h2 =>
    have hz (z : Int) : ∀ a, Fmt.IsInt a z →
        Fmt.writeArg fd {} a = .ok ((if z < 0 then ['-'] else []) ++ Nat.toDigits 10 z.natAbs) := by
      intro a ha
      rw [Fmt.C45_text fd {} a z ha]
      simp [Fmt.intDigits, Fmt.layout, Fmt.signText]
    rw [C41_argument fd _ _ h]
    cases h with
    | int g1 g2 => rw [hz _ _ (.int g1 g2)]
    | @uint n h => rw [hz n _ (.uint h)]; simp [show ¬ (n : Int) < 0 by omega]
    | long g1 g2 => rw [hz _ _ (.long g1 g2)]
    | @ulong n h => rw [hz n _ (.ulong h)]; simp [show ¬ (n : Int) < 0 by omega]
    | char c => rfl
    | cstr h =>
      have : Config.cstr (t ++ ['\x00']) = t := by
        unfold Config.cstr
        rw [List.takeWhile_append_of_pos (by intro c hc; simp; rintro rfl; exact h hc)]
        simp
      cases t with
      | nil => rfl
      | cons c s =>
        simp only [Fmt.writeArg, Fmt.writeStr, Fmt.writeStr.go, List.cons_append]
        rw [if_pos (by simp)]
        rw [List.cons_append] at this
        simp [this, Fmt.pad]
    | str _ behind =>
      cases t with
      | cons c s => simp [Fmt.writeArg, Fmt.writeStr, Fmt.writeStr.go, Fmt.pad]
      | nil =>
        rcases h1 _ _ rfl with h | h
        · exact absurd rfl h
        · cases behind with
          | nil => simp at h
          | cons c b =>
            simp only [List.head?_cons, Option.some.injEq] at h
            subst h
            simp [Fmt.writeArg, Fmt.writeStr, Fmt.writeStr.go, Fmt.pad, Config.cstr]
    | strNull => exact absurd rfl h2

/-- A call that compiles writes the same as the run-time formatter does for the same pattern and arguments, or fails with
the same error. -/
theorem C41_same_partial (fd : Fmt.Spec → Nat → Except Fmt.Err Str) (ps : List Piece) (h : Plain ps)
    (hn : Fmt.WellFormed ps) (f : Formatter) (hf : make (Fmt.printAll ps) = .ok f) (args : List Arg)
    (ha : ∀ a ∈ args, Common a) (hk : fields ps + braces ps ≤ args.length) :
    f.call fd args = (Fmt.format fd (Fmt.printAll ps) args).mapError .run := by
  have hs : ∀ (ps : List Piece) (i : Nat), Plain ps → Fmt.Suits args i ps := by
    intro ps
    induction ps with
    | nil => intros; trivial
    | cons p ps ih =>
      intro i h
      cases p with
      | text s => exact ih i h
      | field pos spec =>
        obtain ⟨rfl, rfl, h⟩ := h
        exact ⟨by simp, ih _ h⟩
  have hm : ∀ ps : List Piece, Plain ps → Fmt.Numbered false ps := by
    intro ps
    induction ps with
    | nil => intros; trivial
    | cons p ps ih =>
      intro h
      cases p with
      | text s => exact ih h
      | field pos spec =>
        obtain ⟨rfl, rfl, h⟩ := h
        exact ⟨rfl, ih h⟩
  rw [call_eq fd ps h f hf args hk, Fmt.C49_expand fd args ps false hn (hs ps 0 h) (hm ps h)]
  have key : ∀ (ps : List Piece) (i : Nat), Plain ps → i + fields ps ≤ args.length →
      expandCells fd (cellsOf ps) (args.drop i) = (Fmt.expand fd args i ps).mapError .run := by
    intro ps
    induction ps with
    | nil => intros; rfl
    | cons p ps ih =>
      intro i h hk
      cases p with
      | text s =>
        rw [cellsOf, expandCells_text, ih i h hk, Fmt.expand]
        cases Fmt.expand fd args i ps <;> rfl
      | field pos spec =>
        obtain ⟨rfl, rfl, h⟩ := h
        simp only [fields] at hk
        have hi : i < args.length := by omega
        rw [List.drop_eq_getElem_cons hi, cellsOf, expandCells, ih (i + 1) h (by omega),
          C41_same_argument fd _ (ha _ (List.getElem_mem hi)), Fmt.expand]
        simp only [Option.getD_none, List.getElem?_eq_getElem hi, Fmt.meaningOf]
        cases Fmt.writeArg fd {} args[i] with
        | error e => rfl
        | ok t => cases Fmt.expand fd args (i + 1) ps <;> rfl
  simpa using key ps 0 h (by omega)

/-- The pattern `{{{}}} of {}` with two arguments more than it has fields. -/
example (fd : Fmt.Spec → Nat → Except Fmt.Err Str) :
    let ps : List Piece := [.text (ch! "{"), .field none none, .text (ch! "} of "), .field none none]
    let args : List Arg := [.long (-7), .cstr (ch! "ten"), .char 'x', .str [] (ch! "\x00")]
    Plain ps ∧ Fmt.WellFormed ps ∧ Fmt.printAll ps = ch! "{{{}}} of {}" ∧ fields ps + braces ps = 4
      ∧ (∀ a ∈ args, Common a)
      ∧ make (ch! "{{{}}} of {}") = .ok (.more ⟨ch! "{", false⟩ (.more ⟨[], true⟩ (.more ⟨ch! "}", false⟩
          (.more ⟨ch! " of ", true⟩ (.last ⟨[], false⟩)))))
      ∧ (Formatter.more ⟨ch! "{", false⟩ (.more ⟨[], true⟩ (.more ⟨ch! "}", false⟩
          (.more ⟨ch! " of ", true⟩ (.last ⟨[], false⟩))))).call fd args = .ok (ch! "{-7} of ten") := by
  refine ⟨by simp [Plain], by simp [Fmt.WellFormed], rfl, rfl, ?_, rfl, rfl⟩
  intro a ha
  simp only [List.mem_cons, List.not_mem_nil, or_false] at ha
  rcases ha with rfl | rfl | rfl | rfl
  · exact .stands (.long (by decide) (by decide)) (by simp) (by simp)
  · exact .stands (.cstr (by decide)) (by simp) (by simp)
  · exact .stands (.char _) (by simp) (by simp)
  · exact .stands (.str _ _) (by simp) (by simp)

example : make (ch! "{0}") = .error (.thrown (ch! "only {} is supported for compile-time analysys for now, sorry"))
    ∧ make (ch! "a}b") = .error (.thrown (ch! "single '}' encountered in format string"))
    ∧ make (ch! "a{") = .error (.thrown (ch! "unmatched '{' in format")) := ⟨rfl, rfl, rfl⟩

/-- A pattern with a doubled brace does not compile with as many arguments as it has fields. -/
theorem C41_fails_doubled_braces (fd : Fmt.Spec → Nat → Except Fmt.Err Str) (ps : List Piece) (h : Plain ps)
    (hb : 0 < braces ps) (f : Formatter) (hf : make (Fmt.printAll ps) = .ok f) (args : List Arg)
    (hk : args.length = fields ps) : f.call fd args = .error .notCompiled := by
  unfold Formatter.call
  rw [if_neg]
  rw [C41_compiles ps h f hf]
  omega

example : Plain [.text (ch! "{"), .field none none] ∧ 0 < braces [.text (ch! "{"), .field none none]
    ∧ Fmt.printAll [.text (ch! "{"), .field none none] = ch! "{{{}"
    ∧ ∃ f, make (ch! "{{{}") = .ok f := ⟨by simp [Plain], by decide, rfl, _, rfl⟩

/-- A `bool` is written as a number, where the run-time formatter writes a word. -/
theorem C41_fails_bool (fd : Fmt.Spec → Nat → Except Fmt.Err Str) :
    ∃ f, make (ch! "{}") = .ok f ∧ f.call fd [.bool true] = .ok (ch! "1")
      ∧ Fmt.format fd (ch! "{}") [.bool true] = .ok (ch! "true") := ⟨_, rfl, rfl, rfl⟩

/-- An empty view is written as nothing, where the run-time formatter writes what follows it in memory. -/
theorem C41_fails_empty_view (fd : Fmt.Spec → Nat → Except Fmt.Err Str) :
    ∃ f, make (ch! "<{}>") = .ok f ∧ f.call fd [.str [] (ch! "secret\x00")] = .ok (ch! "<>")
      ∧ Fmt.format fd (ch! "<{}>") [.str [] (ch! "secret\x00")] = .ok (ch! "<secret>") := ⟨_, rfl, rfl, rfl⟩

end Blackhole.MetaFormat
