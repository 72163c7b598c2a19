import Verif.DateOther.Props

/-! # What the portable generator writes for every pattern (C32) -/

namespace Blackhole.DateOther

open Time Date

/-- The order in which the generator writes a pattern: plain characters wait for the next conversion that it knows, or for
the end, while `%%` and conversions that it does not know are written at once. -/
def reorder (waiting : List Item) : List Item → List Item
  | [] => waiting
  | .char c :: is => reorder (waiting ++ [.char c]) is
  | .conv c :: is => if c ∈ known then waiting ++ .conv c :: reorder [] is else .conv c :: reorder waiting is

variable {lib : Lib} {usec : Nat} {tm : Tm} {n s : Nat} {names : Char → Str}

theorem text_append (epoch : Int) (a b : List Item) :
    text names epoch n s usec (a ++ b) = text names epoch n s usec a ++ text names epoch n s usec b := by
  induction a with
  | nil => rfl
  | cons i a ih => cases i <;> simp [text, ih]

theorem writes_reorder {epoch : Int} (ht : Told tm n s) (hu : usec < 1000000) (tail : Str)
    (htail : tail = [] ∨ tail = ['%']) (items : List Item) : ∀ (h : Handler) (out : Str) (waiting : List Item),
    Writes lib usec tm h out → (∀ i ∈ items, i.Valid) → h.litbuffer = text names epoch n s usec waiting →
    (.conv 's' ∈ items → lib.mktime tm = (epoch, tm)) →
    (∀ c, .conv c ∈ items → ∀ x ∈ needs c, lib.put x tm = .ok (names x)) →
    Writes lib usec tm (parse h (print items ++ tail)) (out ++ text names epoch n s usec (reorder waiting items) ++ tail) := by
  induction items with
  | nil =>
    intro h out waiting hw _ hl _ _
    simp only [print, reorder, List.nil_append]
    rw [← hl]
    rcases htail with rfl | rfl
    · rw [parse, List.append_nil]
      exact (writes_end hw).1
    · have : parse h ['%'] = (h.partialLiteral ['%']).endPartial := by simp [parse]
      rw [this]
      have := (writes_end (h := h.partialLiteral ['%']) (out := out) hw).1
      simpa [Handler.partialLiteral] using this
  | cons i is ih =>
    intro h out waiting hw hv hl hmk hput
    have hvs : ∀ j ∈ is, j.Valid := fun j hj => hv j (by simp [hj])
    have hmks : .conv 's' ∈ is → lib.mktime tm = (epoch, tm) := fun h => hmk (by simp [h])
    have hputs : ∀ c, .conv c ∈ is → ∀ x ∈ needs c, lib.put x tm = .ok (names x) := fun c h => hput c (by simp [h])
    cases i with
    | char c =>
      have hc : c ≠ '%' := hv (.char c) (by simp)
      simp only [print, List.cons_append, reorder]
      rw [parse_char h c hc]
      exact ih (h.partialLiteral [c]) out (waiting ++ [.char c]) hw hvs
        (by simp [Handler.partialLiteral, text_append, text, hl]) hmks hputs
    | conv c =>
      simp only [print, List.cons_append, parse, reorder]
      by_cases hc : c ∈ known
      · rw [if_pos hc]
        obtain ⟨h1, h2⟩ := writes_known (epoch := epoch) ht hu hw c hc (fun e => hmk (by simp [e]))
          (hput c (by simp))
        have := ih (date c h) _ [] h1 hvs h2 hmks hputs
        rw [hl] at this
        simpa [text, text_append] using this
      · rw [if_neg hc]
        have h1 := writes_literal hw (meaning names epoch n s usec c)
        rw [← date_unknown epoch h c hc] at h1
        have := ih (date c h) _ waiting h1 hvs ((date_litbuffer c hc h).trans hl) hmks hputs
        simpa [text] using this

/-- C32. What the portable generator writes for every pattern and every moment from 1970 to 9999: each conversion is
replaced by what it stands for, but the order is that of `reorder`. -/
theorem C32_exact (lib : Lib) (tm : Tm) (names : Char → Str) (epoch : Int) (n s usec : Nat)
    (ht : Told tm n s) (hu : usec < 1000000) (items : List Item) (hv : ∀ i ∈ items, i.Valid)
    (hm : .conv 's' ∈ items → lib.mktime tm = (epoch, tm))
    (hput : ∀ c, .conv c ∈ items → ∀ x ∈ needs c, lib.put x tm = .ok (names x)) (tail : Str) (htail : tail = [] ∨ tail = ['%']) :
    generate lib (print items ++ tail) tm usec = .ok (text names epoch n s usec (reorder [] items) ++ tail) := by
  have := writes_reorder (epoch := epoch) ht hu tail htail items {} [] [] writes_nil hv rfl hm hput
  exact generate_of_writes (by simpa using this)

/-- Every text is such a pattern. -/
theorem C32_every_pattern : ∀ pattern : Str, ∃ items tail, pattern = print items ++ tail ∧ (∀ i ∈ items, i.Valid)
    ∧ (tail = [] ∨ tail = ['%'])
  | [] => ⟨[], [], rfl, by simp, .inl rfl⟩
  | [c] => by
    by_cases hc : c = '%'
    · exact ⟨[], ['%'], by rw [hc]; rfl, by simp, .inr rfl⟩
    · exact ⟨[.char c], [], rfl, by simp [Item.Valid, hc], .inl rfl⟩
  | c :: d :: rest => by
    by_cases hc : c = '%'
    · obtain ⟨items, tail, e, hv, ht⟩ := C32_every_pattern rest
      exact ⟨.conv d :: items, tail, by rw [hc, e]; rfl, by
        intro i hi
        rcases List.mem_cons.1 hi with rfl | hi
        · trivial
        · exact hv i hi, ht⟩
    · obtain ⟨items, tail, e, hv, ht⟩ := C32_every_pattern (d :: rest)
      exact ⟨.char c :: items, tail, by rw [e]; rfl, by
        intro i hi
        rcases List.mem_cons.1 hi with rfl | hi
        · exact hc
        · exact hv i hi, ht⟩

/-- Where the claim is violated: the first `%%` that follows a character comes before it. -/
theorem C32_moved (a : List Item) (c : Char) (text' : List Char) (b : List Item) (ha : ∀ i ∈ a, ∃ y ∈ known, i = .conv y) :
    reorder [] (a ++ .char c :: (text'.map .char ++ .conv '%' :: b))
      = a ++ .conv '%' :: reorder (.char c :: text'.map .char) b := by
  have hk : '%' ∉ known := by decide
  have chars : ∀ (t : List Char) (w rest : List Item), reorder w (t.map .char ++ rest) = reorder (w ++ t.map .char) rest := by
    intro t
    induction t with
    | nil => intro w rest; simp
    | cons x t ih => intro w rest; simp only [List.map_cons, List.cons_append, reorder, ih]; simp
  induction a with
  | nil =>
    simp only [List.nil_append, reorder]
    rw [chars]
    simp only [reorder, List.cons_append, List.nil_append]
    rw [if_neg hk]
  | cons i a ih =>
    obtain ⟨y, hy, rfl⟩ := ha i (by simp)
    simp only [List.cons_append, reorder, List.nil_append]
    rw [if_pos hy, ih (fun j hj => ha j (by simp [hj]))]

/-- `%H h 100%% %M` is written with the percent sign first. -/
example : reorder [] [.conv 'H', .char ' ', .char 'h', .conv '%', .char ' ', .conv 'M']
    = [.conv 'H', .conv '%', .char ' ', .char 'h', .char ' ', .conv 'M'] := by decide

end Blackhole.DateOther
