import Verif.Date.Props
import Verif.Time.Props

/-! # The time of a record, as text (C56, C57, C58) -/

namespace Blackhole.Date

open Rec Time

def defaultItems : List Item :=
  [.conv [] 'Y', .char '-', .conv [] 'm', .char '-', .conv [] 'd', .char ' ', .conv [] 'H', .char ':', .conv [] 'M',
   .char ':', .conv [] 'S', .char '.', .conv [] 'f']

theorem default_print : printItems defaultItems = ch! "%Y-%m-%d %H:%M:%S.%f" := by decide

theorem zeroPad_length (w n k : Nat) (hw : w ≤ k) (hk : 0 < k) (h : n < 10 ^ k) : (zeroPad w n).length ≤ k := by
  have : (Nat.toDigits 10 n).length ≤ k := (Nat.length_toDigits_le_iff (by omega) hk).2 h
  unfold zeroPad
  simp
  omega

/-- The default pattern, for fields that are a date and a time of day. -/
theorem generate_default (fd : Fmt.Spec → Nat → Except Fmt.Err Str) (libc : Libc)
    (conv : Str → Char → Tm → Except UB Str) (hl : Itemwise libc.strftime conv) (hc : Conversions conv) (tm : Tm)
    (d : Date) (s w usec : Nat) (hs : s < 86400) (hd : d.day < 100) (hm2 : d.month < 100)
    (hy : d.year < 10 ^ 12) (hsays : Says tm d s w) (hyear : tm.year = (d.year : Int) - 1900) (hu : usec < 2 ^ 64) :
    generate fd libc (ch! "%Y-%m-%d %H:%M:%S.%f") tm usec =
      .ok (Nat.toDigits 10 d.year ++ ch! "-" ++ zeroPad 2 d.month ++ ch! "-" ++ zeroPad 2 d.day ++ ch! " "
        ++ zeroPad 2 (s / 3600) ++ ch! ":" ++ zeroPad 2 (s % 3600 / 60) ++ ch! ":" ++ zeroPad 2 (s % 60)
        ++ ch! "." ++ zeroPad 6 usec) := by
  obtain ⟨h1, ⟨h2, h2'⟩, ⟨h3, h3'⟩, ⟨h4, h4'⟩, h5, h6, -, -, -⟩ := hsays
  have eY := hc.year tm d.year (by omega)
  have em := hc.month tm d.month (by omega)
  have ed := hc.day tm d.day h5
  have eH := hc.hour tm (s / 3600) (by omega)
  have eM := hc.minute tm (s % 3600 / 60) (by omega)
  have eS := hc.second tm (s % 60) (by omega)
  rw [← default_print]
  have := run_scan fd libc conv hl tm 0 usec hu (by omega) defaultItems [] []
    (Nat.toDigits 10 d.year ++ ch! "-" ++ zeroPad 2 d.month ++ ch! "-" ++ zeroPad 2 d.day ++ ch! " "
        ++ zeroPad 2 (s / 3600) ++ ch! ":" ++ zeroPad 2 (s % 3600 / 60) ++ ch! ":" ++ zeroPad 2 (s % 60)
        ++ ch! "." ++ zeroPad 6 usec) (by simp) (by simp) (by simp)
    (by
      intro i hi
      simp [defaultItems] at hi
      rcases hi with rfl | rfl | rfl | rfl | rfl | rfl | rfl | rfl | rfl | rfl | rfl | rfl | rfl <;>
        simp [Item.Valid] <;> decide)
    (by
      intro a b mods c e
      have : Item.conv mods '%' ∈ defaultItems := by rw [e]; simp
      simp [defaultItems] at this)
    ?_ (by simp [defaultItems, Item.epoch]) rfl
    (by
      simp [defaultItems, Item.full, Item.micro, Item.epoch, Item.text, eY, em, ed, eH, eM, eS, join])
  · simpa [generate, tokenize, printItems] using this
  · intro a mid b t e hmi hep hj
    have key : Short conv tm (defaultItems.filter (· ≠ .micro)) := by
      refine short_of_bound 20 ?_ (by decide)
      intro i hi t ht
      simp [defaultItems, Item.micro] at hi
      have l1 : (Nat.toDigits 10 d.year).length ≤ 12 := (Nat.length_toDigits_le_iff (by omega) (by omega)).2 hy
      have l2 := zeroPad_length 2 d.month 2 (by omega) (by omega) (by omega)
      have l3 := zeroPad_length 2 d.day 2 (by omega) (by omega) (by omega)
      have l4 := zeroPad_length 2 (s / 3600) 2 (by omega) (by omega) (by omega)
      have l5 := zeroPad_length 2 (s % 3600 / 60) 2 (by omega) (by omega) (by omega)
      have l6 := zeroPad_length 2 (s % 60) 2 (by omega) (by omega) (by omega)
      rcases hi with rfl | rfl | rfl | rfl | rfl | rfl | rfl | rfl | rfl | rfl | rfl | rfl | rfl <;>
        simp [Item.text, eY, em, ed, eH, eM, eS] at ht <;> first | (rw [← ht]; simp; done) | (rw [← ht]; omega)
    refine key (a.filter (· ≠ .micro)) mid (b.filter (· ≠ .micro)) t ?_ hmi hep hj
    have he : defaultItems = a ++ mid ++ b := by simpa using e
    rw [he, List.filter_append, List.filter_append]
    congr 2
    rw [List.filter_eq_self]
    intro i hi
    simp
    intro h
    exact hmi (h ▸ hi)

/-! ## Dates in order -/

theorem dateOn_bounds : ∀ n, 1 ≤ (dateOn n).month ∧ (dateOn n).month ≤ 12 ∧ 1 ≤ (dateOn n).day ∧
    (dateOn n).day ≤ monthDays (dateOn n).year (dateOn n).month
  | 0 => by decide
  | n + 1 => by
    obtain ⟨h1, h2, h3, h4⟩ := dateOn_bounds n
    have hpos : ∀ y m, 28 ≤ monthDays y m := by
      intro y m; unfold monthDays; repeat' split
      all_goals omega
    simp only [dateOn, Date.next]
    split
    · simp only; omega
    · split
      · simp only; have := hpos (dateOn n).year ((dateOn n).month + 1); omega
      · simp only; have := hpos ((dateOn n).year + 1) 1; omega

theorem monthDays_le (y m : Nat) : monthDays y m ≤ 31 := by
  unfold monthDays; repeat' split
  all_goals omega

def code (d : Date) : Nat := d.year * 10000 + d.month * 100 + d.day

theorem code_next (n : Nat) : code (dateOn n) < code (dateOn (n + 1)) := by
  obtain ⟨h1, h2, h3, h4⟩ := dateOn_bounds n
  have := monthDays_le (dateOn n).year (dateOn n).month
  rw [dateOn]
  unfold code Date.next
  split
  · simp only; omega
  · split <;> simp only <;> omega

theorem code_mono {m n : Nat} (h : m < n) : code (dateOn m) < code (dateOn n) := by
  induction n with
  | zero => omega
  | succ n ih =>
    have := code_next n
    by_cases hm : m = n
    · subst hm; exact this
    · have := ih (by omega); omega

theorem dateOn_inj {m n : Nat} (h : dateOn m = dateOn n) : m = n := by
  rcases Nat.lt_trichotomy m n with h1 | h1 | h1
  · have := code_mono h1; rw [h] at this; omega
  · exact h1
  · have := code_mono h1; rw [h] at this; omega

/-! ## C56 -/

theorem year_small (n : Nat) (h : n < 2 ^ 40) : (dateOn n).year < 10 ^ 12 := by
  have := (year_bounds n).2
  omega

theorem micros (ns : Nat) : (((ns : Int).tdiv 1000).tmod 1000000) = ((ns / 1000 % 1000000 : Nat) : Int) := by
  rw [Int.tdiv_eq_ediv_of_nonneg (by omega), Int.tmod_eq_emod_of_nonneg (by omega)]
  omega

theorem seconds (ns : Nat) : ((ns : Int).tdiv 1000000000) = ((ns / 1000000000 : Nat) : Int) := by
  rw [Int.tdiv_eq_ediv_of_nonneg (by omega)]
  omega

/-- A timestamp placeholder prints what the clock makes of the pattern. -/
theorem prints_time (cd : Str → Option Nat) (sm : StringFmt.SevMap) (env : Env) (clock : StringFmt.Clock) (r : Record)
    (ns : Nat) (hr : r.timestamp = ns) (pattern : Str) (h1 : '{' ∉ pattern) (h2 : '}' ∉ pattern) (h3 : pattern ≠ [])
    (gm : Bool) (out : Except Exc Str) (hne : out ≠ .ok [])
    (hc : clock pattern gm ((ns / 1000000000 : Nat) : Int) (ns / 1000 % 1000000) = out) :
    StringFmt.Prints cd sm env clock
      (ch! "{timestamp:{" ++ (pattern ++ (ch! "}" ++ (ch! "" ++ if gm then ch! "s}" else ch! "l}")))) r out := by
  have hu : (((r.timestamp.tdiv 1000).tmod 1000000) % 2 ^ 64).toNat = ns / 1000 % 1000000 := by
    rw [hr, micros]; omega
  have hw : ∀ s : Str, s ≠ [] → env.write (ch! "{:s}") (.str s []) = .ok s := by
    intro s hs
    have := StringFmt.write_letter env (.str s []) 's' (by decide)
    rw [(Fmt.C50_not_empty env.fd _ s [] hs (.inr rfl) rfl).1] at this
    have hp : Fmt.pad { type := some 's' } s = s := StringFmt.pad_none s
    rw [hp] at this
    exact this
  have hrender : StringFmt.render env clock sm r (.timestampUser pattern (ch! "{:s}") gm) = out := by
    simp only [StringFmt.render, hu]
    rw [hr, seconds, hc]
    cases out with
    | error e => rfl
    | ok s =>
      cases s with
      | nil => exact absurd rfl hne
      | cons c s => exact hw (c :: s) (by simp)
  cases gm with
  | true =>
    have ht := (Pattern.C20_time cd pattern (ch! "s") h1 h2 (by decide) (by decide)).1 (by decide) (by decide)
    rw [if_neg h3] at ht
    exact StringFmt.prints_token ht hrender
  | false =>
    have ht := (Pattern.C20_time cd pattern [] h1 h2 (by decide) (by decide)).2
    rw [if_neg h3] at ht
    exact StringFmt.prints_token ht hrender

/-- The default pattern, for a conversion that is right about a time. -/
theorem generate_timeText (fd : Fmt.Spec → Nat → Except Fmt.Err Str) (libc : Libc)
    (conv : Str → Char → Tm → Except UB Str) (hl : Itemwise libc.strftime conv) (hc : Conversions conv) (tm : Tm)
    (ns : Nat) (hns : ns < 2 ^ 80)
    (h : Says tm (dateOn (ns / 1000000000 / 86400)) (ns / 1000000000 % 86400) (weekdayOn (ns / 1000000000 / 86400)))
    (hy : tm.year = ((dateOn (ns / 1000000000 / 86400)).year : Int) - 1900) :
    generate fd libc (ch! "%Y-%m-%d %H:%M:%S.%f") tm (ns / 1000 % 1000000) = .ok (timeText ns) := by
  obtain ⟨h1, h2, h3, h4⟩ := dateOn_bounds (ns / 1000000000 / 86400)
  have h5 := monthDays_le (dateOn (ns / 1000000000 / 86400)).year (dateOn (ns / 1000000000 / 86400)).month
  rw [generate_default fd libc conv hl hc tm _ _ _ _ (Nat.mod_lt _ (by omega)) (by omega) (by omega)
    (year_small _ (by omega)) h hy (by omega)]
  unfold timeText
  have e1 : ns / 1000000000 % 86400 % 3600 / 60 = ns / 1000000000 % 3600 / 60 := by omega
  have e2 : ns / 1000000000 % 86400 % 60 = ns / 1000000000 % 60 := by omega
  rw [e1, e2]

theorem timeText_ne (ns : Nat) : timeText ns ≠ [] := by
  unfold timeText
  simp

theorem prints_default (cd : Str → Option Nat) (sm : StringFmt.SevMap) (env : Env) (clock : StringFmt.Clock) (r : Record)
    (usec : Nat) (hu : (((r.timestamp.tdiv 1000).tmod 1000000) % 2 ^ 64).toNat = usec) (s : Str) (hs : s ≠ [])
    (hc : clock (ch! "%Y-%m-%d %H:%M:%S.%f") true (r.timestamp.tdiv 1000000000) usec = .ok s) :
    StringFmt.Prints cd sm env clock (ch! "{timestamp}") r (.ok s) := by
  obtain ⟨_, _, _, _, p5, _⟩ := Pattern.C20_plain cd
  refine StringFmt.prints_token p5 ?_
  simp only [StringFmt.render, hu, hc]
  refine StringFmt.write_plain env _ ?_
  rw [(Fmt.C50_not_empty env.fd {} s [] hs (.inl rfl) rfl).1, StringFmt.pad_none]

/-- C56, partial. The default timestamp of the string formatter is the record's time in UTC, to the microsecond, for every
record from 1970 on. Missing: times before 1970, for which it is false. -/
theorem C56_default_partial (cd : Str → Option Nat) (sm : StringFmt.SevMap) (env : Env) (libc : Libc)
    (conv : Str → Char → Tm → Except UB Str) (hl : Itemwise libc.strftime conv) (hc : Conversions conv)
    (r : Record) (ns : Nat) (hr : r.timestamp = ns) (hns : ns < 2 ^ 63) :
    StringFmt.Prints cd sm env (stringClock env.fd libc) (ch! "{timestamp}") r (.ok (timeText ns)) ∧
    StringFmt.Prints cd sm env (stringClock env.fd libc) (ch! "{timestamp:{%Y-%m-%d %H:%M:%S.%f}s}") r
      (.ok (timeText ns)) := by
  obtain ⟨h1, h2⟩ := C30_range (ns / 1000000000) (by omega)
  have hg : stringClock env.fd libc (ch! "%Y-%m-%d %H:%M:%S.%f") true ((ns / 1000000000 : Nat) : Int)
      (ns / 1000 % 1000000) = .ok (timeText ns) :=
    generate_timeText env.fd libc conv hl hc _ ns (by omega) h1 h2
  constructor
  · exact prints_default cd sm env _ r (ns / 1000 % 1000000) (by rw [hr, micros]; omega) _ (timeText_ne ns)
      (by rw [hr, seconds]; exact hg)
  · exact prints_time cd sm env _ r ns hr (ch! "%Y-%m-%d %H:%M:%S.%f") (by decide) (by decide) (by decide) true
      (.ok (timeText ns)) (by simp [timeText_ne]) hg

/-- The same for the formatters and handlers that use the C library's conversion. -/
theorem C56_libc (fd : Fmt.Spec → Nat → Except Fmt.Err Str) (libc : Libc) (hgm : GmtimeOk libc.toLibc)
    (conv : Str → Char → Tm → Except UB Str) (hl : Itemwise libc.strftime conv) (hc : Conversions conv)
    (ns : Nat) (hns : ns < 2 ^ 63) :
    libcClock fd libc (ch! "%Y-%m-%d %H:%M:%S.%f") true ((ns : Int).tdiv 1000000000)
      ((((ns : Int).tdiv 1000).tmod 1000000) % 2 ^ 64).toNat = .ok (timeText ns) := by
  obtain ⟨h1, h2⟩ := hgm (ns / 1000000000) (by omega)
  have hu : Int.toNat (((ns / 1000 % 1000000 : Nat) : Int) % (2 ^ 64 : Int)) = ns / 1000 % 1000000 := by omega
  rw [micros, seconds, hu]
  exact generate_timeText fd libc conv hl hc _ ns (by omega) h1 h2

theorem digits_no (c : Char) (hc : Fmt.isDigit c = false) (n : Nat) : c ∉ Nat.toDigits 10 n := by
  intro h
  have := Fmt.toDigits_isDigit n c h
  rw [hc] at this
  cases this

theorem zeroPad_inj {w m n : Nat} (hw : 0 < w) (hm : m < 10 ^ w) (hn : n < 10 ^ w) (h : zeroPad w m = zeroPad w n) :
    m = n := by
  have h1 := (zeroPad_ok hw hm).2
  have h2 := (zeroPad_ok hw hn).2
  rw [h, h2] at h1
  injection h1 with h1
  exact h1.symm

/-- C56. The text tells the time to the microsecond: different times have different texts. -/
theorem C56_injective (a b : Nat) (h : timeText a = timeText b) : a / 1000 = b / 1000 := by
  have cut : ∀ (x y s t : Str), '-' ∉ x → '-' ∉ y → x ++ '-' :: s = y ++ '-' :: t → x = y ∧ s = t := by
    intro x
    induction x with
    | nil =>
      intro y s t _ hy h
      cases y with
      | nil => simpa using h
      | cons c y => simp at h; exact absurd h.1 fun e => hy (by simp [← e])
    | cons c x ih =>
      intro y s t hx hy h
      cases y with
      | nil => simp at h; exact absurd h.1 fun e => hx (by simp [e])
      | cons d y =>
        simp at h
        obtain ⟨rfl, h⟩ := h
        obtain ⟨rfl, rfl⟩ := ih y s t (fun e => hx (by simp [e])) (fun e => hy (by simp [e])) h
        exact ⟨rfl, rfl⟩
  have fixed : ∀ (w m n : Nat) (s t : Str), 0 < w → m < 10 ^ w → n < 10 ^ w → zeroPad w m ++ s = zeroPad w n ++ t →
      m = n ∧ s = t := by
    intro w m n s t hw hm hn h
    have := List.append_inj h (by rw [(zeroPad_ok hw hm).1, (zeroPad_ok hw hn).1])
    exact ⟨zeroPad_inj hw hm hn this.1, this.2⟩
  have bounds : ∀ n, (dateOn n).month < 10 ^ 2 ∧ (dateOn n).day < 10 ^ 2 := by
    intro n
    obtain ⟨h1, h2, h3, h4⟩ := dateOn_bounds n
    have := monthDays_le (dateOn n).year (dateOn n).month
    omega
  have ba := bounds (a / 1000000000 / 86400)
  have bb := bounds (b / 1000000000 / 86400)
  simp only [timeText, List.append_assoc, List.cons_append, List.nil_append] at h
  obtain ⟨e1, h⟩ := cut _ _ _ _ (digits_no '-' (by decide) _) (digits_no '-' (by decide) _) h
  obtain ⟨e2, h⟩ := fixed 2 _ _ _ _ (by omega) ba.1 bb.1 h
  injection h with _ h
  obtain ⟨e3, h⟩ := fixed 2 _ _ _ _ (by omega) ba.2 bb.2 h
  injection h with _ h
  obtain ⟨e4, h⟩ := fixed 2 _ _ _ _ (by omega) (by omega) (by omega) h
  injection h with _ h
  obtain ⟨e5, h⟩ := fixed 2 _ _ _ _ (by omega) (by omega) (by omega) h
  injection h with _ h
  obtain ⟨e6, h⟩ := fixed 2 _ _ _ _ (by omega) (by omega) (by omega) h
  injection h with _ h
  have e7 := zeroPad_inj (w := 6) (by omega) (by omega) (by omega) h
  have hyear : (dateOn (a / 1000000000 / 86400)).year = (dateOn (b / 1000000000 / 86400)).year := by
    have hr := fun n => Fmt.readDigits_toDigits 10 (by omega) (by omega) id
      (fun d hd => (Fmt.digitValue_digitChar ⟨d, hd⟩).1) n
    have h1 := hr (dateOn (a / 1000000000 / 86400)).year
    have h2 := hr (dateOn (b / 1000000000 / 86400)).year
    rw [e1, h2] at h1
    injection h1 with h1
    exact h1.symm
  have hday : a / 1000000000 / 86400 = b / 1000000000 / 86400 := by
    apply dateOn_inj
    cases hA : dateOn (a / 1000000000 / 86400) with
    | mk y m d =>
      cases hB : dateOn (b / 1000000000 / 86400) with
      | mk y' m' d' =>
        rw [hA, hB] at hyear e2 e3
        simp_all
  omega

/-- C56 fails before 1970: a microsecond before the epoch is printed as the year 1970 with twenty digits of
microseconds. -/
theorem C56_fails_negative (cd : Str → Option Nat) (sm : StringFmt.SevMap) (env : Env) (libc : Libc)
    (conv : Str → Char → Tm → Except UB Str) (hl : Itemwise libc.strftime conv) (hc : Conversions conv)
    (r : Record) (hr : r.timestamp = -1000) :
    StringFmt.Prints cd sm env (stringClock env.fd libc) (ch! "{timestamp}") r
      (.ok (ch! "1970-01-01 00:00:00.18446744073709551615")) := by
  refine prints_default cd sm env _ r (2 ^ 64 - 1) (by rw [hr]; decide) _ (by simp) ?_
  rw [hr, show (-1000 : Int).tdiv 1000000000 = 0 by decide]
  obtain ⟨h1, h2⟩ := C30_range 0 (by omega)
  have := generate_default env.fd libc conv hl hc (Time.gmtime (0 : Nat)) _ _ _ (2 ^ 64 - 1) (by decide) (by decide)
    (by decide) (by decide) h1 h2 (by omega)
  exact this

/-! ## C57 -/

theorem prints_unique {cd : Str → Option Nat} {sm : StringFmt.SevMap} {env : Env} {clock : StringFmt.Clock}
    {pattern : Str} {r : Record} {a b : Except Exc Str} (ha : StringFmt.Prints cd sm env clock pattern r a)
    (hb : StringFmt.Prints cd sm env clock pattern r b) : a = b := by
  obtain ⟨f, h1, h2⟩ := ha
  obtain ⟨g, h3, h4⟩ := hb
  rw [h1] at h3
  injection h3 with h3
  subst h3
  exact h2.symm.trans h4

/-- What `%z`, alone, prints. -/
theorem generate_zone (fd : Fmt.Spec → Nat → Except Fmt.Err Str) (libc : Libc)
    (conv : Str → Char → Tm → Except UB Str) (hl : Itemwise libc.strftime conv) (tm : Tm) (usec : Nat) :
    generate fd libc (ch! "%z") tm usec = match conv [] 'z' tm with
      | .error u => .error (.ub u)
      | .ok s => .ok (if s.length < 1024 then s else []) := by
  have h := hl [.conv [] 'z'] (by simp [Item.Valid]; decide) tm
  simp [printItems, Item.print, Item.text] at h
  simp [generate, tokenize, scan, run, visit, Config.cstr, h]
  cases conv [] 'z' tm <;> simp [join]

/-- C57, partial. With the local format the default pattern prints the time of the zone's standard time, for every zone.
Missing: summer time, for which it is false. -/
theorem C57_local_partial (cd : Str → Option Nat) (sm : StringFmt.SevMap) (env : Env) (libc : Libc)
    (hgm : GmtimeOk libc.toLibc) (conv : Str → Char → Tm → Except UB Str) (hl : Itemwise libc.strftime conv)
    (hc : Conversions conv) (r : Record) (ns loc : Nat) (hr : r.timestamp = ns)
    (hloc : (loc : Int) = ns - libc.timezone * 1000000000) (hb : loc < 2 ^ 63) :
    StringFmt.Prints cd sm env (stringClock env.fd libc) (ch! "{timestamp:{%Y-%m-%d %H:%M:%S.%f}l}") r
      (.ok (timeText loc)) := by
  have hsec : ((ns / 1000000000 : Nat) : Int) - libc.timezone = ((loc / 1000000000 : Nat) : Int) := by omega
  have husec : ns / 1000 % 1000000 = loc / 1000 % 1000000 := by omega
  obtain ⟨h1, h2⟩ := hgm (loc / 1000000000) (by omega)
  refine prints_time cd sm env _ r ns hr (ch! "%Y-%m-%d %H:%M:%S.%f") (by decide) (by decide) (by decide) false
      (.ok (timeText loc)) (by simp [timeText_ne]) ?_
  have e : Time.localtime libc.toLibc ((ns / 1000000000 : Nat) : Int) =
      { libc.gmtime_r ((loc / 1000000000 : Nat) : Int) with
        gmtoff := some libc.timezone, zone := some libc.tzname } := by
    unfold Time.localtime
    rw [hsec]
  simp only [stringClock, Bool.false_eq_true, if_false]
  rw [e, husec]
  refine generate_timeText env.fd libc conv hl hc _ loc (by omega) ?_ h2
  exact ⟨h1.clock, h1.hour, h1.min, h1.sec, h1.day, h1.month, h1.yearDay, h1.weekday, h1.summer⟩

/-- C57 fails in summer: where the clocks are an hour ahead of the standard time, that hour is missing. -/
theorem C57_fails_summer (cd : Str → Option Nat) (sm : StringFmt.SevMap) (env : Env) (libc : Libc)
    (hgm : GmtimeOk libc.toLibc) (conv : Str → Char → Tm → Except UB Str) (hl : Itemwise libc.strftime conv)
    (hc : Conversions conv) (r : Record) (ns loc wall : Nat) (hr : r.timestamp = ns)
    (hloc : (loc : Int) = ns - libc.timezone * 1000000000) (hb : loc < 2 ^ 63)
    (hwall : wall = loc + 3600 * 1000000000) :
    ¬ StringFmt.Prints cd sm env (stringClock env.fd libc) (ch! "{timestamp:{%Y-%m-%d %H:%M:%S.%f}l}") r
      (.ok (timeText wall)) := by
  intro h
  have h1 := C57_local_partial cd sm env libc hgm conv hl hc r ns loc hr hloc hb
  have h2 := prints_unique h h1
  injection h2 with h2
  have := C56_injective _ _ h2
  omega

/-- C57 fails: in UTC the string formatter's `%z` is the value of a variable that was never written. -/
theorem C57_fails_unwritten (cd : Str → Option Nat) (sm : StringFmt.SevMap) (env : Env) (libc : Libc)
    (conv : Str → Char → Tm → Except UB Str) (hl : Itemwise libc.strftime conv) (hz : ZoneOk conv)
    (r : Record) (ns : Nat) (hr : r.timestamp = ns) :
    StringFmt.Prints cd sm env (stringClock env.fd libc) (ch! "{timestamp:{%z}s}") r (.error (.ub .uninitialised)) := by
  refine prints_time cd sm env _ r ns hr (ch! "%z") (by decide) (by decide) (by decide) true
      (.error (.ub .uninitialised)) (by simp) ?_
  simp only [stringClock, if_true, generate_zone env.fd libc conv hl]
  rw [hz, (C30_zone _).1]

/-- C57 fails: with the local format the offset from UTC has the wrong sign. -/
theorem C57_fails_sign (cd : Str → Option Nat) (sm : StringFmt.SevMap) (env : Env) (libc : Libc)
    (conv : Str → Char → Tm → Except UB Str) (hl : Itemwise libc.strftime conv) (hz : ZoneOk conv)
    (r : Record) (ns : Nat) (hr : r.timestamp = ns) (hb : libc.timezone.natAbs < 360000) :
    StringFmt.Prints cd sm env (stringClock env.fd libc) (ch! "{timestamp:{%z}l}") r
      (.ok (offsetText libc.timezone)) ∧
    (libc.timezone ≠ 0 → offsetText libc.timezone ≠ offsetText (-libc.timezone)) := by
  constructor
  · refine prints_time cd sm env _ r ns hr (ch! "%z") (by decide) (by decide) (by decide) false
      (.ok (offsetText libc.timezone)) (by simp [offsetText]) ?_
    simp only [stringClock, Bool.false_eq_true, if_false, generate_zone env.fd libc conv hl]
    rw [hz]
    have hlen : (offsetText libc.timezone).length < 1024 := by
      have h1 := zeroPad_length 2 (libc.timezone.natAbs / 3600) 2 (by omega) (by omega) (by omega)
      have h2 := zeroPad_length 2 (libc.timezone.natAbs % 3600 / 60) 2 (by omega) (by omega) (by omega)
      simp [offsetText]
      omega
    simp [Time.localtime, hlen]
  · intro h0 h
    unfold offsetText at h
    injection h with h _
    by_cases hneg : libc.timezone < 0
    · rw [if_pos hneg, if_neg (by omega)] at h; revert h; decide
    · rw [if_neg hneg, if_pos (by omega)] at h; revert h; decide

/-! ## C58 -/

/-- What `%s`, alone, prints. -/
theorem generate_epoch (fd : Fmt.Spec → Nat → Except Fmt.Err Str) (libc : Libc)
    (conv : Str → Char → Tm → Except UB Str) (hl : Itemwise libc.strftime conv) (tm : Tm) (usec : Nat) (t : Int)
    (ht1 : -2 ^ 63 ≤ t) (ht2 : t < 2 ^ 63) (hm : (libc.mktime tm).1 = t) :
    generate fd libc (ch! "%s") tm usec = .ok (StringFmt.decimalText t) := by
  have h := hl [] (by simp) tm
  simp [printItems, join] at h
  have ht : tokenize (ch! "%s") = [.literal [], .epoch] := by decide
  simp [generate, ht, run, visit, Config.cstr, h, hm, put_epoch fd t ht1 ht2]

theorem decimalText_ne (t : Int) : StringFmt.decimalText t ≠ [] := by
  unfold StringFmt.decimalText
  split <;> simp

theorem decimalText_inj {a b : Int} (h : StringFmt.decimalText a = StringFmt.decimalText b) : a = b := by
  have key : ∀ m n : Nat, Nat.toDigits 10 m = Nat.toDigits 10 n → m = n := by
    intro m n h
    have hr := fun n => Fmt.readDigits_toDigits 10 (by omega) (by omega) id
      (fun d hd => (Fmt.digitValue_digitChar ⟨d, hd⟩).1) n
    have h1 := hr m
    rw [h, hr n] at h1
    injection h1 with h1
    exact h1.symm
  have minus : ∀ m n : Nat, '-' :: Nat.toDigits 10 m ≠ Nat.toDigits 10 n := by
    intro m n h
    exact digits_no '-' (by decide) n (h ▸ by simp)
  unfold StringFmt.decimalText at h
  by_cases ha : a < 0 <;> by_cases hb : b < 0 <;> simp [ha, hb] at h
  · have := key _ _ h; omega
  · exact absurd h (minus _ _)
  · exact absurd h.symm (minus _ _)
  · have := key _ _ h; omega

/-- C58. With the local format `%s` is the Unix time of the record. -/
theorem C58_local (cd : Str → Option Nat) (sm : StringFmt.SevMap) (env : Env) (libc : Libc)
    (hgm : GmtimeOk libc.toLibc) (hmk : MktimeOk libc) (conv : Str → Char → Tm → Except UB Str)
    (hl : Itemwise libc.strftime conv) (r : Record) (ns loc : Nat) (hr : r.timestamp = ns) (hns : ns < 2 ^ 63)
    (hloc : (loc : Int) = (ns / 1000000000 : Nat) - libc.timezone) (hb : loc < 2 ^ 54) :
    StringFmt.Prints cd sm env (stringClock env.fd libc) (ch! "{timestamp:{%s}l}") r
      (.ok (StringFmt.decimalText (ns / 1000000000 : Nat))) := by
  obtain ⟨h1, h2⟩ := hgm loc hb
  refine prints_time cd sm env _ r ns hr (ch! "%s") (by decide) (by decide) (by decide) false
      (.ok (StringFmt.decimalText (ns / 1000000000 : Nat))) (by simp [decimalText_ne]) ?_
  simp only [stringClock, Bool.false_eq_true, if_false]
  refine generate_epoch env.fd libc conv hl _ _ _ (by omega) (by omega) ?_
  rw [hmk _ (loc / 86400) (loc % 86400) (by omega) ?_ ?_]
  · omega
  · unfold Time.localtime
    rw [← hloc]
    exact ⟨h1.clock, h1.hour, h1.min, h1.sec, h1.day, h1.month, h1.yearDay, h1.weekday, h1.summer⟩
  · unfold Time.localtime
    rw [← hloc]
    exact h2

/-- C58, partial. In UTC `%s` is the Unix time of the record shifted by the zone of the process: it is right if the process
runs in UTC. Missing: other zones, for which it is false. -/
theorem C58_utc_partial (cd : Str → Option Nat) (sm : StringFmt.SevMap) (env : Env) (libc : Libc) (hmk : MktimeOk libc)
    (conv : Str → Char → Tm → Except UB Str) (hl : Itemwise libc.strftime conv) (r : Record) (ns : Nat)
    (hr : r.timestamp = ns) (hns : ns < 2 ^ 63) (hz : libc.timezone.natAbs < 360000) :
    StringFmt.Prints cd sm env (stringClock env.fd libc) (ch! "{timestamp:{%s}s}") r
      (.ok (StringFmt.decimalText ((ns / 1000000000 : Nat) + libc.timezone))) := by
  obtain ⟨h1, h2⟩ := C30_range (ns / 1000000000) (by omega)
  refine prints_time cd sm env _ r ns hr (ch! "%s") (by decide) (by decide) (by decide) true
      (.ok (StringFmt.decimalText ((ns / 1000000000 : Nat) + libc.timezone))) (by simp [decimalText_ne]) ?_
  simp only [stringClock, if_true]
  refine generate_epoch env.fd libc conv hl _ _ _ (by omega) (by omega) ?_
  rw [hmk _ (ns / 1000000000 / 86400) (ns / 1000000000 % 86400) (by omega) h1 h2]
  omega

/-- C58 fails in UTC for a process in any other zone. -/
theorem C58_fails_utc (cd : Str → Option Nat) (sm : StringFmt.SevMap) (env : Env) (libc : Libc) (hmk : MktimeOk libc)
    (conv : Str → Char → Tm → Except UB Str) (hl : Itemwise libc.strftime conv) (r : Record) (ns : Nat)
    (hr : r.timestamp = ns) (hns : ns < 2 ^ 63) (hz : libc.timezone.natAbs < 360000) (h0 : libc.timezone ≠ 0) :
    ¬ StringFmt.Prints cd sm env (stringClock env.fd libc) (ch! "{timestamp:{%s}s}") r
      (.ok (StringFmt.decimalText (ns / 1000000000 : Nat))) := by
  intro h
  have h1 := C58_utc_partial cd sm env libc hmk conv hl r ns hr hns hz
  have h2 := prints_unique h h1
  injection h2 with h2
  have := decimalText_inj h2
  omega

/-! ## Such a C library exists, in every zone -/

private def convert (mods : Str) (c : Char) (tm : Tm) : Except UB Str :=
  if c = 'Y' then .ok (Nat.toDigits 10 (tm.year + 1900).toNat)
  else if c = 'm' then .ok (zeroPad 2 (tm.mon + 1).toNat)
  else if c = 'd' then .ok (zeroPad 2 tm.mday.toNat)
  else if c = 'H' then .ok (zeroPad 2 tm.hour.toNat)
  else if c = 'M' then .ok (zeroPad 2 tm.min.toNat)
  else if c = 'S' then .ok (zeroPad 2 tm.sec.toNat)
  else if c = '%' then .ok ['%']
  else if c = 'z' then
    match tm.gmtoff with
    | none => .error .uninitialised
    | some east => .ok (offsetText east)
  else .ok (mods ++ [c])

/-- The hypotheses of the theorems above, met together. -/
theorem libc_exists (zone : Int) : ∃ (libc : Libc) (conv : Str → Char → Tm → Except UB Str), libc.timezone = zone ∧
    GmtimeOk libc.toLibc ∧ MktimeOk libc ∧ Itemwise libc.strftime conv ∧ Conversions conv ∧ ZoneOk conv := by
  have hin : ∀ tm : Tm, ∃ t : Int, ∀ (n s : Nat), Says tm (dateOn n) s (weekdayOn n) →
      tm.year = ((dateOn n).year : Int) - 1900 → t = (n * 86400 + s : Nat) + zone := by
    intro tm
    by_cases h : ∃ n s : Nat, Says tm (dateOn n) s (weekdayOn n) ∧ tm.year = ((dateOn n).year : Int) - 1900
    · obtain ⟨n, s, h1, h2⟩ := h
      refine ⟨(n * 86400 + s : Nat) + zone, fun n' s' h1' h2' => ?_⟩
      have hn : n = n' := by
        apply dateOn_inj
        have e1 := h1.day; have e2 := h1.month; have e3 := h1'.day; have e4 := h1'.month
        cases hA : dateOn n with
        | mk y m d =>
          cases hB : dateOn n' with
          | mk y' m' d' =>
            rw [hA] at e1 e2 h2
            rw [hB] at e3 e4 h2'
            simp only at *
            simp only [Date.mk.injEq]
            omega
      have e1 := h1.clock; have e2 := h1'.clock
      subst hn
      omega
    · exact ⟨0, fun n s h1 h2 => absurd ⟨n, s, h1, h2⟩ h⟩
  refine ⟨{ gmtime_r := Time.gmtime, localtime_r := Time.gmtime, timezone := zone, tzname := ch! "XST"
            strftime := fun s tm => strftimeOf convert tm none s
            mktime := fun tm => (Classical.choose (hin tm), tm) }, convert, rfl, ?_, ?_, ?_, ?_, ?_⟩
  · exact fun t ht => C30_range t ht
  · exact fun tm n s _ h1 h2 => Classical.choose_spec (hin tm) n s h1 h2
  · exact strftimeOf_itemwise convert
  · constructor <;> intro tm <;> intros <;> simp [convert, *]
  · intro tm; simp [convert]; cases tm.gmtoff <;> rfl

/-- A record of 29 February 2000, in a zone three hours east of Greenwich. -/
example (cd : Str → Option Nat) (sm : StringFmt.SevMap) (env : Env) (r : Record)
    (hr : r.timestamp = (951868799123456789 : Nat)) : ∃ libc : Libc,
    StringFmt.Prints cd sm env (stringClock env.fd libc) (ch! "{timestamp}") r (.ok (timeText 951868799123456789)) ∧
    StringFmt.Prints cd sm env (stringClock env.fd libc) (ch! "{timestamp:{%Y-%m-%d %H:%M:%S.%f}l}") r
      (.ok (timeText 951879599123456789)) ∧
    StringFmt.Prints cd sm env (stringClock env.fd libc) (ch! "{timestamp:{%s}l}") r (.ok (ch! "951868799")) ∧
    StringFmt.Prints cd sm env (stringClock env.fd libc) (ch! "{timestamp:{%s}s}") r (.ok (ch! "951857999")) ∧
    StringFmt.Prints cd sm env (stringClock env.fd libc) (ch! "{timestamp:{%z}l}") r (.ok (ch! "-0300")) := by
  obtain ⟨libc, conv, hz, hg, hm, hi, hc, hzo⟩ := libc_exists (-10800)
  have h1 := C56_default_partial cd sm env libc conv hi hc r _ hr (by omega)
  have h2 := C57_local_partial cd sm env libc hg conv hi hc r _ 951879599123456789 hr (by rw [hz]; omega) (by omega)
  have h3 := C58_local cd sm env libc hg hm conv hi r _ 951879599 hr (by omega) (by rw [hz]; omega) (by omega)
  have h4 := C58_utc_partial cd sm env libc hm conv hi r _ hr (by omega) (by rw [hz]; decide)
  have h5 := C57_fails_sign cd sm env libc conv hi hzo r _ hr (by rw [hz]; decide)
  rw [hz] at h4 h5
  exact ⟨libc, h1.1, h2, h3, h4, h5.1⟩

set_option maxRecDepth 100000 in
example : timeText 11289599123456789 = ch! "1970-05-11 15:59:59.123456" := by decide

end Blackhole.Date
