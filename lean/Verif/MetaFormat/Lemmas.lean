import Verif.Fmt.Props
import Verif.MetaFormat.Model
import Verif.MetaFormat.Spec

/-! # Lemmas on compile-time format strings -/

namespace Blackhole.MetaFormat

open Fmt (Piece Arg)

/-- The units of a pattern: an ordinary character, a doubled brace, or `{}`. -/
inductive Cell where
  | chr (c : Char)
  | brace (c : Char)
  | hole

def Cell.Ok : Cell → Prop
  | .chr c => c ≠ '{' ∧ c ≠ '}'
  | .brace c => c = '{' ∨ c = '}'
  | .hole => True

def Cell.print : Cell → Str
  | .chr c => [c]
  | .brace c => [c, c]
  | .hole => ['{', '}']

def printCells : List Cell → Str
  | [] => []
  | c :: cs => c.print ++ printCells cs

def specials : List Cell → Nat
  | [] => 0
  | .chr _ :: cs => specials cs
  | .brace _ :: cs => specials cs + 1
  | .hole :: cs => specials cs + 1

theorem countFrom_chr (r : Nat) (c : Char) (s : Str) (h : c ≠ '{' ∧ c ≠ '}') : countFrom r (c :: s) = countFrom r s := by
  cases s with
  | nil => unfold countFrom; rw [if_neg h.1, if_neg h.2]; rfl
  | cons d s => rw [countFrom, if_neg h.1, if_neg h.2]

theorem countFrom_cells (cs : List Cell) : ∀ r, (∀ c ∈ cs, c.Ok) → countFrom r (printCells cs) = .ok (r + specials cs) := by
  induction cs with
  | nil => intro r _; rfl
  | cons c cs ih =>
    intro r h
    have hc := h c (by simp)
    have ht : ∀ c ∈ cs, c.Ok := fun x hx => h x (by simp [hx])
    cases c with
    | chr c =>
      show countFrom r (c :: printCells cs) = _
      rw [countFrom_chr r c _ hc, ih r ht]; rfl
    | brace c =>
      show countFrom r (c :: c :: printCells cs) = _
      rcases hc with rfl | rfl
      · rw [countFrom, if_pos rfl, if_pos rfl, ih _ ht]; simp only [specials]; congr 1; omega
      · rw [countFrom, if_neg (by decide), if_pos rfl, if_pos rfl, ih _ ht]; simp only [specials]; congr 1; omega
    | hole =>
      show countFrom r ('{' :: '}' :: printCells cs) = _
      rw [countFrom, if_pos rfl, if_neg (by decide)]
      simp only [parseArgument, if_true]
      rw [ih _ ht]; simp only [specials]; congr 1; omega

theorem countFrom_ok (r : Nat) (s : Str) (n : Nat) (h : countFrom r s = .ok n) :
    ∃ cs : List Cell, (∀ c ∈ cs, c.Ok) ∧ printCells cs = s := by
  fun_induction countFrom r s with
  | case1 => exact ⟨[], by simp, rfl⟩
  | case2 => simp at h
  | case3 => simp at h
  | case4 r c h1 h2 ih =>
    exact ⟨[.chr c], by simp [Cell.Ok, h1, h2], rfl⟩
  | case5 r s ih =>
    obtain ⟨cs, h1, h2⟩ := ih h
    exact ⟨.brace '{' :: cs, by simpa [Cell.Ok] using h1, by simp [printCells, Cell.print, h2]⟩
  | case6 => simp at h
  | case7 r c s h1 k h2 ih =>
    obtain ⟨cs, h3, h4⟩ := ih h
    have : c = '}' := by
      unfold parseArgument at h2
      split at h2
      · assumption
      · simp at h2
    subst this
    exact ⟨.hole :: cs, by simpa [Cell.Ok] using h3, by simp [printCells, Cell.print, h4]⟩
  | case8 r s h1 ih =>
    obtain ⟨cs, h1, h2⟩ := ih h
    exact ⟨.brace '}' :: cs, by simpa [Cell.Ok] using h1, by simp [printCells, Cell.print, h2]⟩
  | case9 => simp at h
  | case10 r c d s h1 h2 ih =>
    obtain ⟨cs, h3, h4⟩ := ih h
    exact ⟨.chr c :: cs, by simpa [Cell.Ok, h1, h2] using h3, by simp [printCells, Cell.print, h4]⟩

/-- The formatter of some cells behind text that was read. -/
def ofCells (acc : Str) : List Cell → Formatter
  | [] => .last ⟨acc, false⟩
  | .chr c :: cs => ofCells (acc ++ [c]) cs
  | .brace c :: cs => .more ⟨acc ++ [c], false⟩ (ofCells [] cs)
  | .hole :: cs => .more ⟨acc, true⟩ (ofCells [] cs)

theorem nextFrom_chars (acc : Str) (h : ∀ c ∈ acc, c ≠ '{' ∧ c ≠ '}') : ∀ (pre : Str) (x y : Char) (s : Str),
    nextFrom pre (acc ++ x :: y :: s) = nextFrom (pre ++ acc) (x :: y :: s) := by
  induction acc with
  | nil => intro pre x y s; simp
  | cons c acc ih =>
    intro pre x y s
    have hc := h c (by simp)
    have := ih (fun d hd => h d (by simp [hd])) (pre ++ [c]) x y s
    rw [List.append_assoc] at this
    cases acc with
    | nil => rw [List.singleton_append, nextFrom, if_neg hc.1, if_neg hc.2]
    | cons d acc =>
      rw [List.cons_append, List.cons_append, nextFrom, if_neg hc.1, if_neg hc.2]
      exact this

theorem build_cells (cs : List Cell) : ∀ acc : Str, (∀ c ∈ acc, c ≠ '{' ∧ c ≠ '}') → (∀ c ∈ cs, c.Ok) →
    build (specials cs + 1) (acc ++ printCells cs) = .ok (ofCells acc cs) := by
  induction cs with
  | nil => intro acc _ _; simp [specials, printCells, build, ofCells]
  | cons c cs ih =>
    intro acc ha h
    have hc := h c (by simp)
    have ht : ∀ c ∈ cs, c.Ok := fun x hx => h x (by simp [hx])
    have h0 : build (specials cs + 1) (printCells cs) = .ok (ofCells [] cs) := by
      simpa using ih [] (by simp) ht
    cases c with
    | chr c =>
      have := ih (acc ++ [c]) (by
        intro d hd
        rw [List.mem_append, List.mem_singleton] at hd
        rcases hd with hd | rfl
        · exact ha d hd
        · exact hc) ht
      simpa [specials, printCells, Cell.print, ofCells] using this
    | brace c =>
      have hn : nextLiteral (acc ++ c :: c :: printCells cs) = .ok ⟨acc ++ [c], false⟩ := by
        unfold nextLiteral
        rw [nextFrom_chars acc ha, List.nil_append]
        rcases hc with rfl | rfl
        · rw [nextFrom, if_pos rfl, if_pos rfl]
        · rw [nextFrom, if_neg (by decide), if_pos rfl, if_pos rfl]
      have hs : substr (acc ++ c :: c :: printCells cs) (acc ++ [c]).length.succ = .ok (printCells cs) := by
        unfold substr
        rw [if_pos (by simp; omega)]
        rw [List.length_append, List.length_singleton, Nat.succ_eq_add_one, Nat.add_assoc, List.drop_length_add_append]
        rfl
      show build (specials cs + 2) (acc ++ c :: c :: printCells cs) = _
      rw [build, hn]
      simp only [Bool.false_eq_true, if_false]
      rw [show (acc ++ [c]).length + 1 = (acc ++ [c]).length.succ from rfl, hs]
      simp only [h0, ofCells]
    | hole =>
      have hn : nextLiteral (acc ++ '{' :: '}' :: printCells cs) = .ok ⟨acc, true⟩ := by
        unfold nextLiteral
        rw [nextFrom_chars acc ha, List.nil_append, nextFrom, if_pos rfl, if_neg (by decide)]
      have hs : substr (acc ++ '{' :: '}' :: printCells cs) (acc.length + 2) = .ok (printCells cs) := by
        unfold substr
        rw [if_pos (by simp)]
        simp
      show build (specials cs + 2) (acc ++ '{' :: '}' :: printCells cs) = _
      rw [build, hn]
      simp only [if_true, hs, h0, ofCells]

theorem make_cells (cs : List Cell) (h : ∀ c ∈ cs, c.Ok) : make (printCells cs) = .ok (ofCells [] cs) := by
  unfold make literalCount
  rw [countFrom_cells cs 1 h]
  simp only
  rw [Nat.add_comm]
  simpa using build_cells cs [] (by simp) h

theorem compiles_more (f : Formatter) : ∀ k, compiles f k = true → compiles f (k + 1) = true := by
  induction f with
  | last => intro k _; rfl
  | more l f ih =>
    intro k h
    cases k with
    | zero => simp [compiles] at h
    | succ k =>
      simp only [compiles, Bool.and_eq_true] at h ⊢
      exact ⟨h.2, ih _ h.2⟩

theorem compiles_cells (cs : List Cell) : ∀ acc k, compiles (ofCells acc cs) k = decide (specials cs ≤ k) := by
  have step (l : Literal) (f : Formatter) (n : Nat) (h : ∀ k, compiles f k = decide (n ≤ k)) (k : Nat) :
      compiles (.more l f) k = decide (n + 1 ≤ k) := by
    cases k with
    | zero => simp [compiles]
    | succ k =>
      simp only [compiles, h]
      by_cases hk : n ≤ k
      · simp [hk]; omega
      · simp [hk]
  induction cs with
  | nil => intro acc k; simp [ofCells, compiles, specials]
  | cons c cs ih =>
    intro acc k
    cases c with
    | chr c => exact ih _ k
    | brace c => exact step _ _ _ (ih []) k
    | hole => exact step _ _ _ (ih []) k

/-- What cells expand to. -/
def expandCells (fd : Fmt.Spec → Nat → Except Fmt.Err Str) : List Cell → List Arg → Except Failure Str
  | [], _ => .ok []
  | .chr c :: cs, args => prepend [c] (expandCells fd cs args)
  | .brace c :: cs, args => prepend [c] (expandCells fd cs args)
  | .hole :: _, [] => .error .notCompiled
  | .hole :: cs, a :: args => andThen (stream fd a) (expandCells fd cs args)

theorem prepend_prepend (a b : Str) (r : Except Failure Str) : prepend a (prepend b r) = prepend (a ++ b) r := by
  cases r <;> simp [prepend]

theorem prepend_nil (r : Except Failure Str) : prepend [] r = r := by cases r <;> rfl

theorem format_cells (fd : Fmt.Spec → Nat → Except Fmt.Err Str) (cs : List Cell) : ∀ (acc : Str) (args : List Arg),
    specials cs ≤ args.length → (ofCells acc cs).format fd args = prepend acc (expandCells fd cs args) := by
  induction cs with
  | nil => intro acc args _; simp [ofCells, Formatter.format, expandCells, prepend]
  | cons c cs ih =>
    intro acc args h
    cases c with
    | chr c =>
      rw [ofCells, ih _ _ h, expandCells, prepend_prepend]
    | brace c =>
      cases args with
      | nil => simp [specials] at h
      | cons a args =>
        simp only [specials, List.length_cons] at h
        rw [ofCells, Formatter.format]
        simp only [Bool.false_eq_true, if_false]
        rw [ih _ _ (by simp; omega), prepend_nil, expandCells, prepend_prepend]
    | hole =>
      cases args with
      | nil => simp [specials] at h
      | cons a args =>
        simp only [specials, List.length_cons] at h
        rw [ofCells, Formatter.format]
        simp only [if_true]
        rw [ih _ _ (by omega), prepend_nil, expandCells]

/-! ## Pieces and cells -/

def cellsOfText (s : Str) : List Cell := s.map fun c => if c = '{' ∨ c = '}' then .brace c else .chr c

def cellsOf : List Piece → List Cell
  | [] => []
  | .text s :: ps => cellsOfText s ++ cellsOf ps
  | .field _ _ :: ps => .hole :: cellsOf ps

theorem printCells_append (a b : List Cell) : printCells (a ++ b) = printCells a ++ printCells b := by
  induction a with
  | nil => rfl
  | cons c a ih => simp [printCells, ih]

theorem printCells_text (s : Str) : printCells (cellsOfText s) = Fmt.escapeText s := by
  induction s with
  | nil => rfl
  | cons c s ih =>
    unfold cellsOfText Fmt.escapeText at *
    rw [List.map_cons, printCells, ih, List.flatMap_cons]
    by_cases h : c = '{' ∨ c = '}'
    · simp [h, Cell.print]
    · simp [h, Cell.print]

theorem printCells_of (ps : List Piece) (h : Plain ps) : printCells (cellsOf ps) = Fmt.printAll ps := by
  induction ps with
  | nil => rfl
  | cons p ps ih =>
    cases p with
    | text s =>
      rw [cellsOf, printCells_append, printCells_text, ih h]; rfl
    | field pos spec =>
      obtain ⟨rfl, rfl, h⟩ := h
      rw [cellsOf, printCells, ih h]; rfl

theorem ok_text (s : Str) : ∀ c ∈ cellsOfText s, c.Ok := by
  intro c hc
  unfold cellsOfText at hc
  rw [List.mem_map] at hc
  obtain ⟨x, -, rfl⟩ := hc
  split
  · assumption
  · rename_i h; exact ⟨fun e => h (.inl e), fun e => h (.inr e)⟩

theorem ok_cells (ps : List Piece) : ∀ c ∈ cellsOf ps, c.Ok := by
  induction ps with
  | nil => simp [cellsOf]
  | cons p ps ih =>
    cases p with
    | text s =>
      intro c hc
      rw [cellsOf, List.mem_append] at hc
      exact hc.elim (ok_text s c) (ih c)
    | field pos spec =>
      intro c hc
      rw [cellsOf, List.mem_cons] at hc
      rcases hc with rfl | hc
      · trivial
      · exact ih c hc

theorem specials_append (a b : List Cell) : specials (a ++ b) = specials a + specials b := by
  induction a with
  | nil => simp [specials]
  | cons c a ih => cases c <;> simp [specials, ih] <;> omega

theorem specials_text (s : Str) : specials (cellsOfText s) = s.countP (fun c => c == '{' || c == '}') := by
  induction s with
  | nil => rfl
  | cons c s ih =>
    unfold cellsOfText at *
    rw [List.map_cons, List.countP_cons]
    by_cases h : c = '{' ∨ c = '}'
    · simp [h, specials, ih]
    · simp [h, specials, ih]

theorem specials_of (ps : List Piece) : specials (cellsOf ps) = fields ps + braces ps := by
  induction ps with
  | nil => rfl
  | cons p ps ih =>
    cases p with
    | text s => rw [cellsOf, specials_append, specials_text, ih]; simp only [fields, braces]; omega
    | field pos spec => rw [cellsOf, specials, ih]; simp only [fields, braces]; omega

theorem expandCells_text (fd : Fmt.Spec → Nat → Except Fmt.Err Str) (s : Str) (cs : List Cell) (args : List Arg) :
    expandCells fd (cellsOfText s ++ cs) args = prepend s (expandCells fd cs args) := by
  induction s with
  | nil => rw [prepend_nil]; rfl
  | cons c s ih =>
    unfold cellsOfText at *
    rw [List.map_cons, List.cons_append]
    by_cases h : c = '{' ∨ c = '}'
    · rw [if_pos h, expandCells, ih, prepend_prepend]; rfl
    · rw [if_neg h, expandCells, ih, prepend_prepend]; rfl

/-! ## Arguments -/

theorem writeDecimal_eq (bits : Nat) (hb : bits = 32 ∨ bits = 64) (z : Int) (h1 : -2 ^ (bits - 1) ≤ z) (h2 : z < 2 ^ (bits - 1)) :
    writeDecimal bits z = .ok ((if z < 0 then ['-'] else []) ++ Nat.toDigits 10 z.natAbs) := by
  have hc : ∀ abs, abs < 2 ^ bits →
      Fmt.countDigits (if bits ≤ 32 then Fmt.powers32 else Fmt.powers64) abs = .ok (Nat.toDigits 10 abs).length := by
    intro abs habs
    rcases hb with rfl | rfl
    · exact Fmt.countDigits32 abs habs
    · exact Fmt.countDigits64 abs habs
  have hlt : ∀ abs, abs < 2 ^ bits → abs < 10 ^ (bits + 1) := by
    intro abs habs
    refine Nat.lt_of_lt_of_le habs (Nat.le_trans (Nat.pow_le_pow_left (by omega : 2 ≤ 10) bits) ?_)
    exact Nat.pow_le_pow_right (by omega) (by omega)
  unfold writeDecimal
  by_cases hz : z < 0
  · have ha : (2 ^ bits - (z % 2 ^ bits).toNat) % 2 ^ bits = z.natAbs ∧ z.natAbs < 2 ^ bits := by
      rcases hb with rfl | rfl <;> simp only [Nat.reducePow, Nat.reduceSub, Int.reducePow] at * <;> omega
    have := Fmt.formatDecimal_spec (bits + 1) z.natAbs [none] (List.replicate (Nat.toDigits 10 z.natAbs).length none) []
      (hlt _ ha.2) (by omega) (by simp)
    simp only [List.append_nil, List.length_replicate, List.length_cons, List.length_nil, List.singleton_append,
      ← List.replicate_succ] at this
    simp only [hz, if_true, bind, Except.bind, ha.1, hc _ ha.2]
    rw [Nat.add_comm 1] at this ⊢
    rw [this]
    simp only [Fmt.put, List.length_cons, Nat.zero_lt_succ, if_true, List.set_cons_zero]
    rw [← List.map_cons, Fmt.finish_some]; rfl
  · have ha : (z % 2 ^ bits).toNat = z.natAbs ∧ z.natAbs < 2 ^ bits := by
      rcases hb with rfl | rfl <;> simp only [Nat.reducePow, Nat.reduceSub, Int.reducePow] at * <;> omega
    have := Fmt.formatDecimal_spec (bits + 1) z.natAbs [] (List.replicate (Nat.toDigits 10 z.natAbs).length none) []
      (hlt _ ha.2) (by omega) (by simp)
    simp only [List.append_nil, List.length_replicate, List.length_nil, List.nil_append, Nat.zero_add] at this
    simp only [hz, if_false, bind, Except.bind, ha.1, hc _ ha.2, this]
    rw [Fmt.finish_some, List.nil_append]

end Blackhole.MetaFormat
