import Verif.Date.Lemmas

/-! # Properties of the timestamp generator on Linux (C31) -/

namespace Blackhole.Date

open Rec Time

theorem print_noNul (items : List Item) (h : ∀ i ∈ items, i.Valid) : '\x00' ∉ printItems items := by
  induction items with
  | nil => simp [printItems]
  | cons i is ih =>
    have ih := ih fun j hj => h j (by simp [hj])
    have hi := h i (by simp)
    simp only [printItems, List.mem_append, not_or]
    refine ⟨?_, ih⟩
    cases i with
    | char c => simp [Item.print]; exact fun e => hi.2 e.symm
    | conv mods c =>
      simp only [Item.print, List.mem_cons, List.mem_append, not_or]
      refine ⟨by decide, fun hm => ?_, fun e => hi.2.2 e.symm, by simp⟩
      have := hi.1 _ hm
      revert this; decide

/-- A run of items rendered by `strftime`. -/
theorem visit_literal (fd : Fmt.Spec → Nat → Except Fmt.Err Str) (libc : Libc)
    (conv : Str → Char → Tm → Except UB Str) (hl : Itemwise libc.strftime conv) (tm : Tm) (usec : Nat)
    (acc : List Item) (hv : ∀ i ∈ acc, i.Valid) (s : Str) (hs : join (acc.map (Item.text conv tm)) = .ok s)
    (hlen : s.length < 1024) : visit fd libc usec tm (.literal (printItems acc)) = .ok (s, tm) := by
  simp only [visit]
  rw [Config.cstr_plain (print_noNul acc hv), hl acc hv tm, hs]
  simp [hlen]

theorem run_scan (fd : Fmt.Spec → Nat → Except Fmt.Err Str) (libc : Libc)
    (conv : Str → Char → Tm → Except UB Str) (hl : Itemwise libc.strftime conv) (tm : Tm) (secs : Int) (usec : Nat)
    (hu : usec < 2 ^ 64) (hsecs : -2 ^ 63 ≤ secs ∧ secs < 2 ^ 63) (items : List Item) : ∀ (acc : List Item) (a out : Str),
    (∀ i ∈ acc, i.Valid) → .micro ∉ acc → .epoch ∉ acc → (∀ i ∈ items, i.Valid) → Unambiguous items →
    Short conv tm (acc ++ items) → (.epoch ∈ items → libc.mktime tm = (secs, tm)) →
    join (acc.map (Item.text conv tm)) = .ok a → join (items.map (Item.full conv tm secs usec)) = .ok out →
    run fd libc usec tm (scan (printItems acc) (printItems items)) = .ok (a ++ out) := by
  induction items with
  | nil =>
    intro acc a out hva hma hea _ _ hsh _ ha ho
    simp only [List.map_nil, join] at ho
    injection ho with ho
    subst ho
    simp only [printItems, scan]
    have hlen := hsh [] acc [] a (by simp) hma hea ha
    split
    · rename_i hz
      have : acc = [] := by
        cases acc with
        | nil => rfl
        | cons i is => cases i <;> simp [printItems, Item.print] at hz
      subst this
      simp only [List.map_nil, join] at ha
      injection ha with ha
      subst ha
      rfl
    · simp only [run]
      rw [visit_literal fd libc conv hl tm usec acc hva a ha hlen]
  | cons i is ih =>
    intro acc a out hva hma hea hv hun hsh hmk ha ho
    have hvi := hv i (by simp)
    have hvs : ∀ j ∈ is, j.Valid := fun j hj => hv j (by simp [hj])
    have huns : Unambiguous is := fun x y m c e => hun (i :: x) y m c (by simp [e])
    have hlen := hsh [] acc (i :: is) a (by simp) hma hea ha
    rw [List.map_cons, show ∀ x (l : List (Except UB Str)), x :: l = [x] ++ l from fun _ _ => rfl] at ho
    obtain ⟨o1, o2, ho1, ho2, rfl⟩ := join_ok_append ho
    have hsh' : Short conv tm is := by
      intro x mid y s e
      exact hsh (acc ++ i :: x) mid y s (by simp [e])
    have hnil := ih [] [] o2 (by simp) (by simp) (by simp) hvs huns (by simpa using hsh')
      (fun h => hmk (by simp [h])) rfl ho2
    by_cases hm : i = .micro
    · subst hm
      simp only [Item.full, if_true, join, List.append_nil] at ho1
      injection ho1 with ho1
      subst ho1
      have hscan : scan (printItems acc) (printItems (.micro :: is))
          = .literal (printItems acc) :: .usecond :: scan [] (printItems is) := by
        simp [printItems, Item.print, Item.micro, scan]
      rw [hscan]
      simp only [run]
      rw [visit_literal fd libc conv hl tm usec acc hva a ha hlen]
      simp only [visit, put_usec fd usec hu]
      rw [show printItems [] = [] from rfl] at hnil
      rw [hnil]
      simp
    by_cases he : i = .epoch
    · subst he
      have hne : Item.epoch ≠ Item.micro := by decide
      simp only [Item.full, if_neg hne, if_true, join, List.append_nil] at ho1
      injection ho1 with ho1
      subst ho1
      have hscan : scan (printItems acc) (printItems (.epoch :: is))
          = .literal (printItems acc) :: .epoch :: scan [] (printItems is) := by
        simp [printItems, Item.print, Item.epoch, scan]
      rw [hscan]
      simp only [run]
      rw [visit_literal fd libc conv hl tm usec acc hva a ha hlen]
      simp only [visit, hmk (by simp), put_epoch fd secs hsecs.1 hsecs.2]
      rw [show printItems [] = [] from rfl] at hnil
      rw [hnil]
      simp
    · have hfull : Item.full conv tm secs usec i = i.text conv tm := by
        unfold Item.full; rw [if_neg hm, if_neg he]
      rw [hfull] at ho1
      rw [printItems, scan_item _ i is hvi hm he hun]
      have := ih (acc ++ [i]) (a ++ o1) o2 (by
          intro j hj
          rcases List.mem_append.1 hj with h | h
          · exact hva j h
          · simp at h; subst h; exact hvi)
        (by simp [hma]; exact fun h => hm h.symm) (by simp [hea]; exact fun h => he h.symm) hvs huns (by simpa using hsh)
        (fun h => hmk (by simp [h])) (by
          rw [List.map_append, join_append, ha]
          simp only [List.map_cons, List.map_nil, ho1]) ho2
      rw [printItems_append] at this
      simpa [printItems] using this

/-- C31, partial. For every pattern and every `strftime` that works conversion by conversion, the text of a timestamp is
the pattern with `%f` replaced by the six digits of the microseconds, `%s` by the seconds that `mktime` returns, and
everything else as `strftime` does it. Missing: patterns with an escaped percent sign before an `f` or an `s`, patterns
with 1024 or more characters of text between the microseconds, and a `mktime` that changes its argument; the theorems
below show what happens then. -/
theorem C31_expand_partial (fd : Fmt.Spec → Nat → Except Fmt.Err Str) (libc : Libc)
    (conv : Str → Char → Tm → Except UB Str) (hl : Itemwise libc.strftime conv) (tm : Tm) (secs : Int) (usec : Nat)
    (hu : usec < 1000000) (hsecs : -2 ^ 63 ≤ secs ∧ secs < 2 ^ 63) (items : List Item) (hv : ∀ i ∈ items, i.Valid)
    (hun : Unambiguous items) (hsh : Short conv tm items) (hmk : .epoch ∈ items → libc.mktime tm = (secs, tm))
    (out : Str) (ho : join (items.map (Item.full conv tm secs usec)) = .ok out) :
    generate fd libc (printItems items) tm usec = .ok out := by
  have := run_scan fd libc conv hl tm secs usec (by omega) hsecs items [] [] out (by simp) (by simp) (by simp) hv hun
    (by simpa using hsh) hmk rfl ho
  simpa [generate, tokenize, printItems] using this

theorem readDigits_zeros (k : Nat) (s : Str) : Fmt.readDigits 10 0 (List.replicate k '0' ++ s) = Fmt.readDigits 10 0 s := by
  induction k with
  | zero => rfl
  | succ k ih =>
    rw [List.replicate_succ, List.cons_append, Fmt.readDigits]
    simpa [Fmt.digitValue] using ih

/-- A padded number has the given width and reads back. -/
theorem zeroPad_ok {w n : Nat} (hw : 0 < w) (h : n < 10 ^ w) :
    (zeroPad w n).length = w ∧ Fmt.readDigits 10 0 (zeroPad w n) = some n := by
  have hl : (Nat.toDigits 10 n).length ≤ w := (Nat.length_toDigits_le_iff (by omega) hw).2 h
  unfold zeroPad
  refine ⟨by simp; omega, ?_⟩
  rw [readDigits_zeros]
  have := Fmt.readDigits_toDigits 10 (by omega) (by omega) id (fun d hd => (Fmt.digitValue_digitChar ⟨d, hd⟩).1) n
  simpa using this

/-- The microseconds have six digits. -/
theorem C31_six_digits (n : Nat) (h : n < 1000000) :
    (zeroPad 6 n).length = 6 ∧ Fmt.readDigits 10 0 (zeroPad 6 n) = some n := zeroPad_ok (by omega) (by omega)

/-- C31 fails for an escaped percent sign followed by `f`: instead of `%f` the microseconds appear. -/
theorem C31_fails_percent (fd : Fmt.Spec → Nat → Except Fmt.Err Str) (libc : Libc)
    (conv : Str → Char → Tm → Except UB Str) (hc : Conversions conv) (tm : Tm) (usec : Nat) (hu : usec < 1000000) :
    join ([Item.conv [] '%', .char 'f'].map (Item.full conv tm 0 usec)) = .ok (ch! "%f") ∧
    generate fd libc (printItems [.conv [] '%', .char 'f']) tm usec ≠ .ok (ch! "%f") := by
  constructor
  · simp [Item.full, Item.micro, Item.epoch, Item.text, hc.percent, join]
  · have ht : tokenize (printItems [.conv [] '%', .char 'f']) = [.literal (ch! "%"), .usecond] := by
      simp [tokenize, printItems, Item.print, scan]
    simp only [generate, ht, run]
    intro h
    have hlen := (C31_six_digits usec hu).1
    cases hv : visit fd libc usec tm (.literal (ch! "%")) with
    | error e => rw [hv] at h; cases h
    | ok p =>
      rw [hv] at h
      simp only [visit, put_usec fd usec (by omega)] at h
      injection h with h
      have := congrArg List.length h
      simp at this
      omega

/-- C31 fails for long texts: a part of 1024 or more characters disappears. -/
theorem C31_fails_long (fd : Fmt.Spec → Nat → Except Fmt.Err Str) (libc : Libc)
    (conv : Str → Char → Tm → Except UB Str) (hl : Itemwise libc.strftime conv) (tm : Tm) (usec n : Nat) (hn : 1024 ≤ n) :
    join ((List.replicate n (Item.char 'a')).map (Item.full conv tm 0 usec)) = .ok (List.replicate n 'a') ∧
    generate fd libc (printItems (List.replicate n (Item.char 'a'))) tm usec = .ok [] := by
  have hp : ∀ n, printItems (List.replicate n (Item.char 'a')) = List.replicate n 'a' := by
    intro n
    induction n with
    | zero => rfl
    | succ n ih => simp [List.replicate_succ, printItems, Item.print, ih]
  have hj : ∀ n, join (List.replicate n (.ok ['a'])) = .ok (List.replicate n 'a') := by
    intro n
    induction n with
    | zero => rfl
    | succ n ih => simp [List.replicate_succ, join, ih]
  constructor
  · rw [List.map_replicate]
    exact hj n
  · have ht : tokenize (List.replicate n 'a') = [.literal (List.replicate n 'a')] := by
      have := scan_chars [] (List.replicate n 'a') [] (by simp)
      rw [List.append_nil] at this
      unfold tokenize
      rw [this]
      simp [scan, show n ≠ 0 by omega]
    rw [hp]
    simp only [generate, ht, run, visit]
    rw [Config.cstr_plain (by simp), ← hp, hl _ (by simp [Item.Valid]) tm, List.map_replicate]
    simp only [Item.text, hj]
    simp [show ¬ n < 1024 by omega]

/-- Patterns whose items are short enough are short. -/
theorem short_of_bound {conv : Str → Char → Tm → Except UB Str} {tm : Tm} {items : List Item} (K : Nat)
    (h : ∀ i ∈ items, ∀ s, i.text conv tm = .ok s → s.length ≤ K) (hK : K * items.length < 1024) :
    Short conv tm items := by
  have key : ∀ (l : List Item), (∀ i ∈ l, ∀ s, i.text conv tm = .ok s → s.length ≤ K) → ∀ s,
      join (l.map (Item.text conv tm)) = .ok s → s.length ≤ K * l.length := by
    intro l
    induction l with
    | nil => intro _ s h; simp [join] at h; simp [← h]
    | cons i is ih =>
      intro hi s hs
      rw [List.map_cons, show ∀ x (l : List (Except UB Str)), x :: l = [x] ++ l from fun _ _ => rfl] at hs
      obtain ⟨o1, o2, h1, h2, rfl⟩ := join_ok_append hs
      have h2 := ih (fun j hj => hi j (by simp [hj])) o2 h2
      have h3 : o1.length ≤ K := by
        cases ht : i.text conv tm with
        | error u => simp [ht, join] at h1
        | ok s =>
          simp [ht, join] at h1
          exact h1 ▸ hi i (by simp) s ht
      simp only [List.length_append, List.length_cons, Nat.mul_add]
      omega
  intro a mid b s e _ _ hj
  have hb := key mid (fun i hi => h i (by rw [e]; simp [hi])) s hj
  have hle : mid.length ≤ items.length := by rw [e]; simp; omega
  have := Nat.mul_le_mul_left K hle
  omega

/-! A pattern with everything in it, for a `strftime` that prints conversions as they are. -/

private def show_ (mods : Str) (c : Char) (_ : Tm) : Except UB Str := .ok ('<' :: (mods ++ [c, '>']))

private def toy (epoch : Int) : Libc where
  gmtime_r := Time.gmtime
  localtime_r := Time.gmtime
  timezone := 0
  tzname := []
  strftime := fun s tm => strftimeOf show_ tm none s
  mktime := fun tm => (epoch, tm)

example (fd : Fmt.Spec → Nat → Except Fmt.Err Str) (tm : Tm) :
    generate fd (toy 77) (ch! "a%Y%-d%%%f.%sf") tm 123 = .ok (ch! "a<Y><-d><%>000123.77f") := by
  have h := C31_expand_partial fd (toy 77) show_ (strftimeOf_itemwise show_) tm 77 123 (by omega) (by omega)
    [.char 'a', .conv [] 'Y', .conv ['-'] 'd', .conv [] '%', .conv [] 'f', .char '.', .conv [] 's', .char 'f']
    (by intro i hi; simp at hi; rcases hi with rfl | rfl | rfl | rfl | rfl | rfl | rfl | rfl <;> simp [Item.Valid] <;> decide)
    (by
      intro a b mods c e
      rcases a with _ | ⟨_, _ | ⟨_, _ | ⟨_, _ | ⟨_, _ | ⟨_, _ | ⟨_, _ | ⟨_, _ | ⟨_, a⟩⟩⟩⟩⟩⟩⟩⟩ <;> simp at e)
    (short_of_bound 4 (by
      intro i hi s h
      simp at hi
      rcases hi with rfl | rfl | rfl | rfl | rfl | rfl | rfl | rfl <;> simp [Item.text, show_] at h <;> simp [← h])
      (by simp))
    (fun _ => rfl) (ch! "a<Y><-d><%>000123.77f") rfl
  simpa [printItems, Item.print] using h

end Blackhole.Date
