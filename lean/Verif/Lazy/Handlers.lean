import Verif.Lazy.HandlerModel
import Verif.Lazy.Text

/-! # C107: handlers -/

namespace Blackhole.Lazy

open Rec Pattern Console

/-- The end of a call of a handler that prints. -/
def ending : Option Exc → Except Exc Unit
  | none => .ok ()
  | some e => .error e

theorem dev_value {σ : Type} (fns : Fns σ) (dtoa : Nat → Str) (v : LValue) (s : S σ) :
    (devValue fns dtoa v s).1.world = v.after fns s.world
      ∧ (devValue fns dtoa v s).2 = Dev.value dtoa (v.then fns s.world)
      ∧ Calls s (devValue fns dtoa v s) (functionsOf v) ∧ Alone s (devValue fns dtoa v s) := by
  cases v with
  | function id =>
    refine ⟨?_, ?_, does_call fns id s [], ?_⟩
    · simp only [devValue, call, LValue.after]
      rcases fns id s.world [] with ⟨w, _ | k, t⟩ <;> rfl
    · simp only [devValue, call, LValue.then, result]
      rcases fns id s.world [] with ⟨w, _ | k, t⟩ <;> rfl
    · simp only [devValue, call]
      rcases fns id s.world [] with ⟨w, _ | k, t⟩ <;> exact ⟨[(id, [])], rfl, by simp⟩
  | _ => exact ⟨rfl, rfl, .nil _ _, .nil _ _⟩

theorem print_append (as bs : List (Except Exc Str)) :
    Dev.printAll (as ++ bs) = match Dev.printAll as with
      | (out, some e) => (out, some e)
      | (out, none) => (out ++ (Dev.printAll bs).1, (Dev.printAll bs).2) := by
  induction as with
  | nil => simp [Dev.printAll]
  | cons a as ih =>
    cases a with
    | error e => rfl
    | ok t =>
      simp only [List.cons_append, Dev.printAll, ih]
      rcases Dev.printAll as with ⟨out, _ | e⟩ <;> simp

theorem dev_attributes {σ : Type} (fns : Fns σ) (env : Env) (dtoa : Nat → Str) (tty : Bool) (as : List (View × LValue)) (s : S σ) :
    (devAttributes fns env dtoa tty as s).2
      = Dev.printAll ((resolve fns s.world as).flatMap (Dev.attrPieces env dtoa tty))
    ∧ Calls s ((devAttributes fns env dtoa tty as s).1, ending (devAttributes fns env dtoa tty as s).2.2)
        (as.flatMap fun a => functionsOf a.2)
    ∧ Alone s ((devAttributes fns env dtoa tty as s).1, ending (devAttributes fns env dtoa tty as s).2.2) := by
  induction as generalizing s with
  | nil => exact ⟨rfl, .nil _ _, .nil _ _⟩
  | cons a as ih =>
    obtain ⟨v1, v2, v3, v4⟩ := dev_value fns dtoa a.2 s
    have hp : Dev.attrPieces env dtoa tty (a.1, a.2.then fns s.world)
        = [.ok (ch! "\n"), .ok (Dev.colorize tty Color.gray), Dev.name env a.1, .ok (Dev.colorize tty Color.reset)]
          ++ [Dev.value dtoa (a.2.then fns s.world)] := rfl
    simp only [resolve, List.flatMap_cons, hp, List.append_assoc]
    rw [print_append]
    simp only [devAttributes, devBefore]
    rcases Dev.printAll [.ok (ch! "\n"), .ok (Dev.colorize tty Color.gray), Dev.name env a.1, .ok (Dev.colorize tty Color.reset)]
      with ⟨out, _ | e⟩
    · simp only
      rw [← v2, ← v1]
      rcases hv : devValue fns dtoa a.2 s with ⟨s', e | t⟩
      · rw [hv] at v3 v4
        refine ⟨by simp [Dev.printAll], ?_, ?_⟩
        · exact v3.then (fun e' he => ⟨rfl, e, rfl⟩) (fun x hx => by cases hx)
        · exact v4
      · rw [hv] at v3 v4
        obtain ⟨i1, i2, i3⟩ := ih s'
        simp only
        rcases hd : devAttributes fns env dtoa tty as s' with ⟨s'', rest, e⟩
        rw [hd] at i1 i2 i3
        refine ⟨?_, ?_, ?_⟩
        · simp only [List.cons_append, List.nil_append, Dev.printAll]
          rw [← i1]
          simp
        · exact v3.then (fun e' he => by cases he) (fun x hx => i2)
        · exact v4.then i3
    · exact ⟨rfl, ⟨[], by simp, by simp, fun x hx => by cases hx⟩, ⟨[], by simp, by simp⟩⟩

/-- **C107, handlers for development.** Each function is called once, with a writer of its own; what is printed is what is printed
for the record in which each attribute has what its function gave. -/
theorem C107_dev {σ : Type} (fns : Fns σ) (env : Env) (libc : Date.Libc) (dtoa : Nat → Str) (tty : Bool) (r : LRecord) (s : S σ) :
    (devHandle fns env libc dtoa tty r s).2
      = Dev.handle env libc dtoa tty { r.bare with pack := [resolve fns s.world r.pack.flatten] }
    ∧ Calls s ((devHandle fns env libc dtoa tty r s).1, ending (devHandle fns env libc dtoa tty r s).2.2)
        (r.pack.flatten.flatMap fun a => functionsOf a.2)
    ∧ Alone s ((devHandle fns env libc dtoa tty r s).1, ending (devHandle fns env libc dtoa tty r s).2.2) := by
  have hp : Dev.pieces env libc dtoa tty { r.bare with pack := [resolve fns s.world r.pack.flatten] }
      = devHead env libc tty r ++ ((resolve fns s.world r.pack.flatten).flatMap (Dev.attrPieces env dtoa tty) ++ [.ok (ch! "\n")]) := by
    rw [← List.append_assoc]
    simp only [Dev.pieces, List.flatten_cons, List.flatten_nil, List.append_nil]
    rfl
  obtain ⟨i1, i2, i3⟩ := dev_attributes fns env dtoa tty r.pack.flatten s
  unfold Dev.handle
  rw [hp, print_append, print_append]
  unfold devHandle
  rcases Dev.printAll (devHead env libc tty r) with ⟨out, _ | e⟩
  · simp only
    rw [← i1]
    rcases hd : devAttributes fns env dtoa tty r.pack.flatten s with ⟨s', mid, _ | e⟩
    · rw [hd] at i2 i3
      exact ⟨by simp [Dev.printAll], i2, i3⟩
    · rw [hd] at i2 i3
      exact ⟨rfl, i2, i3⟩
  · exact ⟨rfl, ⟨[], by simp, by simp, fun x hx => by cases hx⟩, ⟨[], by simp, by simp⟩⟩

/-- **C107, blocking handlers.** Beyond what the formatter calls, each asynchronous sink that takes the record calls each function
once more; other sinks call none, however many there are. -/
theorem C107_blocking {σ : Type} (fns : Fns σ) (format : Act σ) (ids : List Nat) (hf : ∀ s w, Calls s (format s w) ids)
    (sinks : List Receiver) (r : LRecord) (s : S σ) :
    Calls s (blockingHandle fns format sinks r s)
      (ids ++ sinks.flatMap fun
        | .queue true => r.pack.flatten.flatMap fun a => functionsOf a.2
        | _ => []) := by
  have all : ∀ (sinks : List Receiver) (s : S σ), Calls s (emitAll fns r.pack.flatten sinks s)
      (sinks.flatMap fun
        | .queue true => r.pack.flatten.flatMap fun a => functionsOf a.2
        | _ => []) := by
    intro sinks
    induction sinks with
    | nil => intro s; exact .nil _ _
    | cons x sinks ih =>
      intro s
      rw [List.flatMap_cons]
      rcases x with (_ | e) | (_ | _)
      · exact ih s
      · exact ⟨[], by simp [emitAll], by simp, fun x hx => by cases hx⟩
      · exact ih s
      · refine (C107_queue fns r.pack.flatten s).1.then ?_ ?_
        · intro e he
          simp only [emitAll]
          split
          · next heq => rw [heq]; exact ⟨rfl, _, rfl⟩
          · next heq => rw [heq] at he; cases he
        · intro bs hb
          simp only [emitAll]
          split
          · next heq => rw [heq] at hb; cases hb
          · next heq => rw [heq]; exact ih _
  refine (hf s []).then ?_ ?_
  · intro e he
    simp only [blockingHandle]
    split
    · next heq => rw [heq]; exact ⟨rfl, _, rfl⟩
    · next heq => rw [heq] at he; cases he
  · intro t ht
    simp only [blockingHandle]
    split
    · next heq => rw [heq] at ht; cases ht
    · next heq => rw [heq]; exact all _ _

/-- The three formatters meet the hypothesis, this one with the functions that its pattern shows. -/
example {σ : Type} (fns : Fns σ) (env : Env) (clock : StringFmt.Clock) (f : StringFmt.Formatter) (sinks : List Receiver)
    (r : LRecord) (s : S σ) :
    Calls s (blockingHandle fns (stringFormat fns env clock f r) sinks r s)
      (f.tokens.flatMap (shownBy r.pack.flatten) ++ sinks.flatMap fun
        | .queue true => r.pack.flatten.flatMap fun a => functionsOf a.2
        | _ => []) :=
  C107_blocking fns _ _ (C107_string fns env clock f r) sinks r s

/-- A pattern that shows no function, a console and two queues, of which one is full: the function is called once. -/
example : blockingHandle fns (stringFormat fns env clock (pattern [.message (ch! "{}")]) (record [(.at (ch! "x") [], .function 0)]))
    [.direct none, .queue false, .queue true] (record [(.at (ch! "x") [], .function 0)]) ⟨0, []⟩ = (⟨1, [(0, [])]⟩, .ok ()) := by
  rfl

/-! ## String formatters: the other placeholders -/

theorem item_same {σ : Type} (fns fns' : Fns σ) (env : Env) (a : View × LValue) (i : Item)
    (h : (match i with
      | .value _ => functionsOf a.2
      | _ => []) = []) : writeItem fns env a i = writeItem fns' env a i := by
  cases i with
  | value spec =>
    simp only at h
    simp only [writeItem]
    cases ha : a.2 with
    | function id => rw [ha] at h; cases h
    | _ => rfl
  | _ => rfl

theorem render_same {σ : Type} (fns fns' : Fns σ) (env : Env) (clock : StringFmt.Clock) (sevmap : StringFmt.SevMap) (r : LRecord)
    (t : Token) (h : shownBy r.pack.flatten t = []) : render fns env clock sevmap r t = render fns' env clock sevmap r t := by
  have value : ∀ (spec : Str) (v : LValue), functionsOf v = [] → writeValue fns env spec v = writeValue fns' env spec v := by
    intro spec v hv
    cases v with
    | function id => cases hv
    | _ => rfl
  cases t with
  | required name spec =>
    simp only [render, find_eq]
    simp only [shownBy] at h
    cases hf : r.pack.flatten.find? (fun a => decide (a.1.text = name)) with
    | none => rfl
    | some a => rw [hf] at h; exact value spec a.2 (by simpa using h)
  | optional name spec o =>
    simp only [render, find_eq]
    simp only [shownBy] at h
    cases hf : r.pack.flatten.find? (fun a => decide (a.1.text = name)) with
    | none => rfl
    | some a => rw [hf] at h; exact value spec a.2 (by simpa using h)
  | leftover l =>
    have : ∀ (as : List (View × LValue)) (first : Bool), shownBy as (.leftover l) = [] →
        leftover fns env l as first = leftover fns' env l as first := by
      intro as
      induction as with
      | nil => intro first _; rfl
      | cons a as ih =>
        intro first h
        simp only [shownBy, List.flatMap_cons, List.append_eq_nil_iff] at h
        simp only [leftover]
        rw [ih false (by simp only [shownBy]; exact h.2)]
        congr 3
        exact List.map_congr_left fun i hi => item_same fns fns' env a i (List.flatMap_eq_nil_iff.1 h.1 i hi)
    simp only [render]
    rw [this _ _ h]
  | _ => rfl

/-- Whatever functions do, they only append. -/
def OnlyAppends {σ : Type} (fns : Fns σ) : Prop := ∀ id world w, ∃ t, (fns id world w).2.2 = w ++ t

/-- An action that only appends. -/
def Adds {σ : Type} (a : Act σ) : Prop := ∀ s w s' w', a s w = (s', .ok w') → ∃ t, w' = w ++ t

theorem adds_emit {σ : Type} (x : Except Exc Str) : Adds (σ := σ) (emit x) := by
  intro s w s' w' h
  cases x with
  | error e => cases h
  | ok t => cases h; exact ⟨t, rfl⟩

theorem adds_value {σ : Type} {fns : Fns σ} (hf : OnlyAppends fns) (env : Env) (spec : Str) (v : LValue) :
    Adds (writeValue fns env spec v) := by
  cases v with
  | function id =>
    intro s w s' w' h
    simp only [writeValue, call] at h
    obtain ⟨t, ht⟩ := hf id s.world w
    rcases hx : fns id s.world w with ⟨w1, _ | k, u⟩
    · rw [hx] at h ht
      cases h
      exact ⟨t, ht⟩
    · rw [hx] at h; cases h
  | _ => exact adds_emit _

theorem adds_render {σ : Type} {fns : Fns σ} (hf : OnlyAppends fns) (env : Env) (clock : StringFmt.Clock) (sevmap : StringFmt.SevMap)
    (r : LRecord) (t : Token) : Adds (render fns env clock sevmap r t) := by
  cases t with
  | required name spec =>
    simp only [render]
    split
    · exact adds_value hf env spec _
    · exact adds_emit _
  | optional name spec o =>
    simp only [render]
    split
    · exact adds_value hf env spec _
    · exact adds_emit _
  | leftover l =>
    intro s w s' w' h
    simp only [render, inside] at h
    split at h
    · cases h
    · exact adds_emit _ _ _ _ _ h
  | _ => simp only [render]; exact adds_emit _

/-- **C107, string formatters: the other placeholders.** If functions only append, whatever and depending on whatever, then the text
consists of one part for each placeholder, and each placeholder that shows no function has the part that it has for a record with any other
functions. -/
theorem C107_string_others_partial {σ : Type} (fns : Fns σ) (hf : OnlyAppends fns) (env : Env) (clock : StringFmt.Clock)
    (f : StringFmt.Formatter) (r : LRecord) (s s' : S σ) (text : Str) (h : stringFormat fns env clock f r s [] = (s', .ok text)) :
    ∃ parts : List Str, text = parts.flatten
      ∧ Both (fun token part => shownBy r.pack.flatten token = [] →
          ∀ out, StringFmt.render env clock f.sevmap (r.given out) token = .ok part) f.tokens parts := by
  have all : ∀ (tokens : List Token) (s s' : S σ) (w text : Str),
      seq (tokens.map (render fns env clock f.sevmap r)) s w = (s', .ok text) →
      ∃ parts : List Str, text = w ++ parts.flatten
        ∧ Both (fun token part => shownBy r.pack.flatten token = [] →
            ∀ out, StringFmt.render env clock f.sevmap (r.given out) token = .ok part) tokens parts := by
    intro tokens
    induction tokens with
    | nil =>
      intro s s' w text h
      cases h
      exact ⟨[], by simp, .nil⟩
    | cons token tokens ih =>
      intro s s' w text h
      simp only [List.map_cons, seq] at h
      split at h
      · cases h
      · next s1 w1 heq =>
        obtain ⟨part, rfl⟩ := adds_render hf env clock f.sevmap r token _ _ _ _ heq
        obtain ⟨parts, rfl, h2⟩ := ih _ _ _ _ h
        refine ⟨part :: parts, by simp, .cons ?_ h2⟩
        intro hshown out
        let fns' : Fns σ := fun id world w =>
          match out id with
          | .ok t => (world, none, w ++ t)
          | .error k => (world, some k, [])
        have ha : Appends fns' out := by
          intro id world w
          simp only [fns']
          cases out id <;> rfl
        have hw := writes_render ha env clock f.sevmap r token s w
        rw [← render_same fns fns' env clock f.sevmap r token hshown, heq] at hw
        cases hr : StringFmt.render env clock f.sevmap (r.given out) token with
        | error e => rw [hr] at hw; cases hw
        | ok t =>
          rw [hr] at hw
          simp only [behind, Except.map, Except.ok.injEq] at hw
          rw [List.append_cancel_left hw]
  obtain ⟨parts, h1, h2⟩ := all f.tokens s s' [] text h
  exact ⟨parts, by simpa using h1, h2⟩

/-- The counting function of the examples only appends. -/
example : OnlyAppends (σ := Nat) fun _ n w => (n + 1, none, w ++ [if n = 0 then 'a' else 'b']) := fun _ _ _ => ⟨_, rfl⟩

end Blackhole.Lazy
