import Verif.Flush.Props

/-!
# C101: attributes that end the process

The handler for development calls the functions of lazy attributes while it prints. Each line before is on the device by then.
-/

namespace Blackhole.Flush

open Ostream Rec

/-- The record with only the first attributes. -/
def cut (r : Record) (xs : List (View × Value)) : Record := { r with pack := [xs] }

theorem devOps_cut (env : Env) (libc : Date.Libc) (dtoa : Format → Nat → Str) (tty : Bool) (r : Record)
    (xs : List (View × Value)) (a : View × Value) (ys : List (View × Value)) (h : r.pack.flatten = xs ++ a :: ys) :
    ∃ more, devOps env libc dtoa tty r = devOps env libc dtoa tty (cut r xs) ++ more := by
  unfold devOps
  rw [h]
  simp only [cut, List.flatten_cons, List.flatten_nil, List.append_nil, List.flatMap_append, List.flatMap_cons, attrOps,
    List.append_assoc]
  refine ⟨colorize tty Console.Color.gray ++ ([(Dev.name env a.1).map fun t => .fmt (Format.text t)] ++
    (colorize tty Console.Color.reset ++ ([value dtoa a.2] ++ (ys.flatMap (attrOps env dtoa tty) ++ endl.map .ok)))), ?_⟩
  rfl

theorem okPrefix_append {ts ts' : List (Except Exc Op)} (h : (okPrefix ts).2 = none) :
    (okPrefix (ts ++ ts')).1 = (okPrefix ts).1 ++ (okPrefix ts').1 := by
  induction ts with
  | nil => rfl
  | cons t ts ih =>
    cases t with
    | error e => cases h
    | ok op => simp only [List.cons_append, okPrefix]; rw [ih h]

/-- **The process dies in an attribute.** Once the handler has printed more than the lines before an attribute, those lines have
left the process, with all that was printed before: `line` is what it prints for the record without this attribute and those
behind it. -/
theorem C101_attribute (what : Exc → Option Str) (env : Env) (libc : Date.Libc) (dtoa : Format → Nat → Str) (tty : Bool)
    (r : Record) (xs : List (View × Value)) (a : View × Value) (ys : List (View × Value)) (hr : r.pack.flatten = xs ++ a :: ys)
    (b b' : Buf) (hf : b.format.Plain) (hb : b.format.boolalpha = false) (lines : Str)
    (hl : Dev.handle env libc (dtoa b.format) tty { r with pack := [xs] } = (lines, none)) (part rest : List Op)
    (hp : (Work.ops what (.dev env libc dtoa tty r)).1 = part ++ rest) (hmore : lines.length < (plan b.format part).length)
    (h : Steps b part b') : b.device ++ b.pending ++ lines <+: b'.device := by
  obtain ⟨more, hm⟩ := devOps_cut env libc dtoa tty r xs a ys hr
  have hs := same_dev hf hb env libc dtoa tty (cut r xs)
  unfold Same at hs
  have hl' : Dev.printAll (Dev.pieces env libc (dtoa b.format) tty (cut r xs)) = (lines, none) := hl
  rw [hl'] at hs
  obtain ⟨h1, h2⟩ := hs
  simp only [Work.ops] at hp
  rw [hm, okPrefix_append h2] at hp
  obtain ⟨ts, he⟩ := devOps_end env libc dtoa tty (cut r xs)
  obtain ⟨init, hi⟩ := okPrefix_end ts .flush (by rw [← he]; exact h2)
  rw [← he] at hi
  have hpre : (okPrefix (devOps env libc dtoa tty (cut r xs))).1 <+: part := by
    rcases List.prefix_or_prefix_of_prefix (List.prefix_append _ (okPrefix more).1)
      (show part <+: (okPrefix (devOps env libc dtoa tty (cut r xs))).1 ++ (okPrefix more).1 by
        rw [hp]; exact List.prefix_append _ _) with h | ⟨q, h⟩
    · exact h
    · exfalso
      rw [← h, plan_append] at h1
      have := congrArg List.length h1
      simp only [List.length_append] at this
      omega
  obtain ⟨q, hq⟩ := hpre
  rw [← hq] at h
  obtain ⟨m, s1, s2⟩ := h.split _ _ rfl
  have hall := s1.all.1
  rw [hi] at s1
  rw [s1.flushed, List.append_nil, h1] at hall
  rw [← hall]
  exact s2.all.2.2

/-! ## The hypotheses can be met -/

/-- A record with an attribute whose function never returns: the first line is printed for it alone, and the name of the attribute
has been printed when the function is called. -/
example (env : Env) (hpid : env.pid = 42) (libc : Date.Libc) (dtoa : Format → Nat → Str) (time : Str)
    (ht : Dev.timestamp env libc 0 = .ok time) :
    let r : Record := { message := .at (ch! "hello") [], severity := 3, timestamp := 0, tid := 7,
                        pack := [[(.at (ch! "n") [], .function (.ok (ch! "x")))]] }
    let lines := time ++ ch! " E 7/42 - hello\n"
    Dev.handle env libc (dtoa Format.default) false { r with pack := [[]] } = (lines, none) ∧
    ∃ part rest, (Work.ops (fun _ => none) (.dev env libc dtoa false r)).1 = part ++ rest ∧
      plan Format.default part = lines ++ ch! "    n               : " := by
  have hn : Dev.name env (.at (ch! "n") []) = .ok (ch! "    n               : ") := Dev.name_text ..
  refine ⟨?_, ((Work.ops (fun _ => none) (.dev env libc dtoa false
    { message := .at (ch! "hello") [], severity := 3, timestamp := 0, tid := 7,
      pack := [[(.at (ch! "n") [], .function (.ok (ch! "x")))]] })).1.take 12), _, (List.take_append_drop _ _).symm, ?_⟩
  · simp only [Dev.handle, Dev.pieces, Dev.colorize, ht, hpid, Dev.printAll, Bool.false_eq_true, if_false, List.nil_append,
      List.append_nil, List.cons_append, List.flatten_cons, List.flatten_nil, List.flatMap_nil, List.append_assoc, Prod.mk.injEq,
      and_true]
    refine congrArg (time ++ ·) ?_
    decide
  · simp only [Work.ops, devOps, colorize, Bool.false_eq_true, if_false, List.nil_append, List.append_nil, List.cons_append, ht,
      Except.map, List.flatten_cons, List.flatten_nil, List.flatMap_cons, List.flatMap_nil, attrOps, hn, endl, List.map_cons,
      List.map_nil, okPrefix, plan, value, hpid, List.append_assoc, List.take]
    refine congrArg (time ++ ·) ?_
    decide

end Blackhole.Flush
