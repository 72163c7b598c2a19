import Verif.Ostream.Lemmas

namespace Blackhole.Ostream

open Console (Color)
open Rec

/-- The operations before the first exception, and that exception. -/
def okPrefix : List (Except Exc Op) → List Op × Option Exc
  | [] => ([], none)
  | .error e :: _ => ([], some e)
  | .ok op :: ts => (op :: (okPrefix ts).1, (okPrefix ts).2)

def devEnd : Option Exc → DevEnd
  | none => .returned
  | some e => .threw e

theorem runTokens_eq (s : Stream) (ts : List (Except Exc Op)) :
    runTokens s ts = ((runOps s (okPrefix ts).1).1,
      if (runOps s (okPrefix ts).1).2 then .failure else devEnd (okPrefix ts).2) := by
  induction ts generalizing s with
  | nil => rfl
  | cons t ts ih =>
    cases t with
    | error e => rfl
    | ok op =>
      simp only [runTokens, okPrefix, runOps]
      obtain ⟨s', b, hr⟩ : ∃ s' b, op.run s = (s', b) := ⟨_, _, rfl⟩
      simp only [hr]
      cases b
      · exact ih s'
      · rfl

/-- Tokens that print the pieces of `Verif.Dev`. -/
def Same (f : Format) (ts : List (Except Exc Op)) (ps : List (Except Exc Str)) : Prop :=
  plan f (okPrefix ts).1 = (Dev.printAll ps).1 ∧ (okPrefix ts).2 = (Dev.printAll ps).2

theorem Same.append {f : Format} (hf : f.Plain) {ts ts' : List (Except Exc Op)} {ps ps' : List (Except Exc Str)}
    (h : Same f ts ps) (h' : Same f ts' ps') : Same f (ts ++ ts') (ps ++ ps') := by
  have h1 : ∀ ts : List (Except Exc Op), okPrefix (ts ++ ts') =
      ((okPrefix ts).1 ++ (if (okPrefix ts).2.isSome then [] else (okPrefix ts').1),
        if (okPrefix ts).2.isSome then (okPrefix ts).2 else (okPrefix ts').2) := by
    intro ts
    induction ts with
    | nil => simp [okPrefix]
    | cons t ts ih =>
      cases t
      · simp [okPrefix]
      · simp [okPrefix, ih]
        exact ⟨rfl, rfl⟩
  have h2 : ∀ ps : List (Except Exc Str), Dev.printAll (ps ++ ps') =
      ((Dev.printAll ps).1 ++ (if (Dev.printAll ps).2.isSome then [] else (Dev.printAll ps').1),
        if (Dev.printAll ps).2.isSome then (Dev.printAll ps).2 else (Dev.printAll ps').2) := by
    intro ps
    induction ps with
    | nil => simp [Dev.printAll]
    | cons p ps ih =>
      cases p
      · simp [Dev.printAll]
      · simp [Dev.printAll, ih]
        exact ⟨rfl, rfl⟩
  obtain ⟨a, b⟩ := h
  obtain ⟨a', b'⟩ := h'
  unfold Same
  rw [h1, h2, ← b, ← a]
  simp only
  cases (okPrefix ts).2 with
  | some e => simp [plan_append, plan]
  | none => simp [plan_append, planFormat_plain hf, a', b']

theorem same_colorize {f : Format} (hf : f.Plain) (tty : Bool) (c : Color) :
    Same f (colorize tty c) [.ok (Dev.colorize tty c)] := by
  cases tty with
  | false => exact ⟨rfl, rfl⟩
  | true =>
    have := colour_plain hf c
    refine ⟨?_, rfl⟩
    show plan f (colour c) = _
    rw [this]
    simp [Dev.printAll, Dev.colorize]

theorem same_text {f : Format} (hf : f.Plain) (t : Str) : Same f [.ok (.fmt (Format.text t))] [.ok t] :=
  ⟨by simp [okPrefix, plan, Dev.printAll, text_plain hf.2.2], rfl⟩

theorem same_endl (f : Format) : Same f (endl.map .ok) [.ok (ch! "\n")] := ⟨rfl, rfl⟩

theorem same_map {f : Format} {e : Except Exc Str} {g : Str → Op} (h : ∀ t, Same f [.ok (g t)] [.ok t]) :
    Same f [e.map g] [e] := by
  cases e with
  | error e => exact ⟨rfl, rfl⟩
  | ok t => exact h t

theorem toDigits_length_pos (z : Int) (h : ¬ z < 0) : Console.showInt z = Nat.toDigits 10 z.natAbs := by
  unfold Console.showInt; rw [if_neg h]

theorem same_value {f : Format} (hf : f.Plain) (hb : f.boolalpha = false) (dtoa : Format → Nat → Str) (v : Value) :
    Same f [value dtoa v] [Dev.value (dtoa f) v] := by
  cases v with
  | null => exact same_text hf _
  | bool b =>
    refine ⟨?_, rfl⟩
    cases b <;> simp [value, Dev.value, okPrefix, plan, Dev.printAll, Format.bool, hb, int_plain hf] <;> rfl
  | sint z => exact ⟨by simp [value, Dev.value, okPrefix, plan, Dev.printAll, int_plain hf], rfl⟩
  | uint n => exact ⟨by simp [value, Dev.value, okPrefix, plan, Dev.printAll, nat_plain hf], rfl⟩
  | double bits =>
    refine ⟨?_, rfl⟩
    simp only [value, Dev.value, okPrefix, plan, Dev.printAll, List.append_nil]
    have hp : ∀ a b, f.pad a b = a ++ b := by
      intro a b
      unfold Format.pad
      rw [hf.2.2]
      cases f.adjust <;> simp
    unfold Format.double
    split
    · rename_i c t e
      rw [e]
      split <;> rw [hp] <;> rfl
    · rename_i e
      rw [e, hp]; rfl
  | string v => exact same_text hf _
  | function r =>
    cases r with
    | ok s => exact same_text hf _
    | error id => exact ⟨rfl, rfl⟩

theorem same_attr {f : Format} (hf : f.Plain) (hb : f.boolalpha = false) (env : Env) (dtoa : Format → Nat → Str) (tty : Bool)
    (a : View × Value) : Same f (attrOps env dtoa tty a) (Dev.attrPieces env (dtoa f) tty a) := by
  exact ((((same_endl f).append hf (same_colorize hf tty _)).append hf (same_map (same_text hf))).append hf
    (same_colorize hf tty _)).append hf (same_value hf hb dtoa a.2)

theorem same_attrs {f : Format} (hf : f.Plain) (hb : f.boolalpha = false) (env : Env) (dtoa : Format → Nat → Str) (tty : Bool)
    (as : List (View × Value)) :
    Same f (as.flatMap (attrOps env dtoa tty)) (as.flatMap (Dev.attrPieces env (dtoa f) tty)) := by
  induction as with
  | nil => exact ⟨rfl, rfl⟩
  | cons a as ih =>
    rw [List.flatMap_cons, List.flatMap_cons]
    exact (same_attr hf hb env dtoa tty a).append hf ih

theorem same_dev {f : Format} (hf : f.Plain) (hb : f.boolalpha = false) (env : Env) (libc : Date.Libc)
    (dtoa : Format → Nat → Str) (tty : Bool) (r : Record) :
    Same f (devOps env libc dtoa tty r) (Dev.pieces env libc (dtoa f) tty r) := by
  have hraw : ∀ t, Same f [.ok (.raw t)] [.ok t] := fun t => ⟨by simp [okPrefix, plan, Dev.printAll], rfl⟩
  have hids : Same f [.ok (.fmt (Format.text (ch! " "))), .ok (.fmt (Format.nat r.tid)), .ok (.fmt (Format.text (ch! "/"))),
      .ok (.fmt (Format.int 32 env.pid))] [.ok (ch! " " ++ Nat.toDigits 10 r.tid ++ ch! "/" ++ Nat.toDigits 10 env.pid)] := by
    refine ⟨?_, rfl⟩
    simp only [okPrefix, plan, Dev.printAll, hf.zero, text_plain hf.2.2, nat_plain hf, int_plain hf]
    rw [toDigits_length_pos _ (by omega)]
    simp
  have hreset : Same f (colorize tty Color.reset ++ colorize tty Color.gray)
      [.ok (Dev.colorize tty Color.reset ++ Dev.colorize tty Color.gray)] := by
    have := (same_colorize hf tty Color.reset).append hf (same_colorize hf tty Color.gray)
    refine ⟨this.1.trans ?_, this.2⟩
    simp [Dev.printAll]
  have h := (same_colorize hf tty Color.gray).append hf
    ((same_map (e := Dev.timestamp env libc r.timestamp) hraw).append hf
    ((same_text hf (ch! " ")).append hf
    ((same_colorize hf tty (Dev.severity r.severity).1).append hf
    ((same_text hf [(Dev.severity r.severity).2]).append hf
    (hids.append hf (hreset.append hf ((same_text hf (ch! " - ")).append hf ((same_colorize hf tty Color.reset).append hf
    ((same_text hf r.message.text).append hf ((same_colorize hf tty Color.reset).append hf
    ((same_attrs hf hb env dtoa tty r.pack.flatten).append hf (same_endl f))))))))))))
  unfold devOps Dev.pieces
  simp only [List.append_assoc, List.cons_append, List.nil_append] at h ⊢
  exact h

end Blackhole.Ostream
