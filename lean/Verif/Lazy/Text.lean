import Verif.Lazy.Props

/-! # C107: what is printed -/

namespace Blackhole.Lazy

open Rec Pattern

/-! ## Functions that append -/

/-- What an action appends, whatever was there and whatever the state is. -/
def Writes {σ : Type} (a : Act σ) (r : Except Exc Str) : Prop := ∀ s w, (a s w).2 = behind w r

theorem writes_emit {σ : Type} (r : Except Exc Str) : Writes (σ := σ) (emit r) r := by
  intro s w
  rw [emit_behind]

theorem writes_value {σ : Type} {fns : Fns σ} {out : Nat → Except Nat Str} (h : Appends fns out) (env : Env) (spec : Str)
    (v : LValue) : Writes (writeValue fns env spec v) (StringFmt.writeValue env spec (v.given out)) := by
  cases v with
  | function id =>
    intro s w
    have h := h id s.world w
    simp only [writeValue, call, LValue.given, StringFmt.writeValue]
    rcases hf : fns id s.world w with ⟨s', x, t⟩
    rw [hf] at h
    cases ho : out id with
    | ok t' =>
      rw [ho] at h
      simp only [Prod.mk.injEq] at h
      obtain ⟨rfl, rfl⟩ := h
      rfl
    | error k =>
      rw [ho] at h
      simp only at h
      subst h
      rfl
  | _ => exact writes_emit _

theorem writes_seq {σ : Type} {as : List (Act σ)} {rs : List (Except Exc Str)} (h : Both (fun a r => Writes a r) as rs) :
    Writes (seq as) (concat rs) := by
  induction h with
  | nil => intro s w; simp [seq, behind, concat, Except.map]
  | @cons a r as rs h1 _ ih =>
    intro s w
    have h1 := h1 s w
    rcases ha : a s w with ⟨s', e | w'⟩
    · rw [ha] at h1
      cases r with
      | ok t => cases h1
      | error e' => cases h1; simp [seq, ha, concat, behind, Except.map]
    · rw [ha] at h1
      cases r with
      | error e' => cases h1
      | ok t =>
        cases h1
        simp only [seq, ha, ih s' (w ++ t), concat]
        cases concat rs <;> simp [behind, Except.map]

theorem writes_inside {σ : Type} {a : Act σ} {r : Except Exc Str} (h : Writes a r) (use : Str → Except Exc Str) :
    Writes (inside a use) (r.bind use) := by
  intro s w
  have h := h s []
  rcases ha : a s [] with ⟨s', e | t⟩
  · rw [ha] at h
    cases r with
    | ok t => cases h
    | error e' => cases h; simp [inside, ha, behind, Except.map, Except.bind]
  · rw [ha] at h
    cases r with
    | error e' => cases h
    | ok t' =>
      cases h
      simp only [inside, ha, List.nil_append]
      exact writes_emit _ s' w

/-- The parts of the leftover placeholder. -/
def parts (env : Env) (l : Leftover) : List (View × Value) → Bool → List (Except Exc Str)
  | [], _ => []
  | a :: as, first =>
    .ok (if first then [] else l.separator) :: concat (l.items.map (StringFmt.writeItem env a)) :: parts env l as false

theorem evalList_parts (env : Env) (l : Leftover) (as : List (View × Value)) (out : Str) (first : Bool) :
    StringFmt.evalList env l as out first = (concat (parts env l as first)).map fun t => (out ++ t, first && as.isEmpty) := by
  induction as generalizing out first with
  | nil => simp [StringFmt.evalList, parts, concat, Except.map]
  | cons a as ih =>
    simp only [StringFmt.evalList, parts, concat]
    cases concat (l.items.map (StringFmt.writeItem env a)) with
    | error e => rfl
    | ok t =>
      simp only [ih, concat]
      cases concat (parts env l as false) <;> simp [Except.map]

theorem evalList_append (env : Env) (l : Leftover) (as bs : List (View × Value)) (out : Str) (first : Bool) :
    StringFmt.evalList env l (as ++ bs) out first = match StringFmt.evalList env l as out first with
      | .error e => .error e
      | .ok (out, first) => StringFmt.evalList env l bs out first := by
  induction as generalizing out first with
  | nil => rfl
  | cons a as ih =>
    simp only [List.cons_append, StringFmt.evalList]
    cases concat (l.items.map (StringFmt.writeItem env a)) with
    | error e => rfl
    | ok t => exact ih _ _

theorem eval_parts (env : Env) (l : Leftover) (pack : Pack) :
    StringFmt.eval env l pack = concat (parts env l pack.flatten true) := by
  have h : ∀ (pack : Pack) (out : Str) (first : Bool),
      StringFmt.evalPack env l pack out first = StringFmt.evalList env l pack.flatten out first := by
    intro pack
    induction pack with
    | nil => intro out first; rfl
    | cons as pack ih =>
      intro out first
      rw [List.flatten_cons, evalList_append]
      simp only [StringFmt.evalPack]
      cases StringFmt.evalList env l as out first with
      | error e => rfl
      | ok p => exact ih _ _
  unfold StringFmt.eval
  rw [h, evalList_parts]
  cases concat (parts env l pack.flatten true) <;> simp [Except.map]

theorem writes_item {σ : Type} {fns : Fns σ} {out : Nat → Except Nat Str} (h : Appends fns out) (env : Env)
    (a : View × LValue) (i : Item) :
    Writes (writeItem fns env a i) (StringFmt.writeItem env (a.1, a.2.given out) i) := by
  cases i with
  | value spec => exact writes_value h env _ _
  | _ => exact writes_emit _

theorem writes_leftover {σ : Type} {fns : Fns σ} {out : Nat → Except Nat Str} (h : Appends fns out) (env : Env) (l : Leftover)
    (as : List (View × LValue)) (first : Bool) :
    Both (fun a r => Writes a r) (leftover fns env l as first)
      (parts env l (as.map fun a => (a.1, a.2.given out)) first) := by
  induction as generalizing first with
  | nil => exact .nil
  | cons a as ih =>
    exact .cons (writes_emit _) (.cons (writes_seq (both_map _ fun i _ => writes_item h env a i)) (ih false))

theorem find_given (out : Nat → Except Nat Str) (name : Str) (pack : LPack) :
    StringFmt.find name (pack.map fun l => l.map fun a => (a.1, a.2.given out))
      = (find name pack.flatten).map (LValue.given out) := by
  rw [StringFmt.find_eq, find_eq]
  have : (pack.map fun l => l.map fun a => (a.1, a.2.given out)).flatten
      = pack.flatten.map fun a => (a.1, a.2.given out) := by
    rw [List.map_flatten]
  rw [this, List.find?_map]
  simp only [Function.comp_def, Option.map_map]

theorem writes_render {σ : Type} {fns : Fns σ} {out : Nat → Except Nat Str} (h : Appends fns out) (env : Env)
    (clock : StringFmt.Clock) (sevmap : StringFmt.SevMap) (r : LRecord) (t : Token) :
    Writes (render fns env clock sevmap r t) (StringFmt.render env clock sevmap (r.given out) t) := by
  cases t with
  | required name spec =>
    simp only [render, StringFmt.render, LRecord.given, find_given]
    cases find name r.pack.flatten with
    | none => exact writes_emit _
    | some v => exact writes_value h env spec v
  | optional name spec o =>
    simp only [render, StringFmt.render, LRecord.given, find_given]
    cases find name r.pack.flatten with
    | none => exact writes_emit _
    | some v => exact writes_value h env spec v
  | leftover l =>
    have h1 := writes_inside (writes_seq (writes_leftover h env l r.pack.flatten true))
      fun t => if t = [] then .ok [] else env.write l.spec (.str t [])
    have h2 : StringFmt.render env clock sevmap (r.given out) (.leftover l)
        = (concat (parts env l (r.pack.flatten.map fun a => (a.1, a.2.given out)) true)).bind
          fun t => if t = [] then .ok [] else env.write l.spec (.str t []) := by
      simp only [StringFmt.render, LRecord.given, eval_parts, ← List.map_flatten]
      generalize concat (parts env l (r.pack.flatten.map fun a => (a.1, a.2.given out)) true) = x
      rcases x with e | _ | ⟨c, t⟩
      · rfl
      · rfl
      · simp [Except.bind]
    rw [h2]
    exact h1
  | _ => exact writes_emit _

/-- **C107, string formatters: functions that append.** If functions only append, and always the same, whatever their state is and
whatever is in the writer, then the text is that of the record in which each attribute has its text. -/
theorem C107_string_text_partial {σ : Type} (fns : Fns σ) (out : Nat → Except Nat Str) (h : Appends fns out) (env : Env)
    (clock : StringFmt.Clock) (f : StringFmt.Formatter) (r : LRecord) (s : S σ) :
    (stringFormat fns env clock f r s []).2 = f.format env clock (r.given out) := by
  have := writes_seq (both_map f.tokens fun t _ => writes_render h env clock f.sevmap r t) s []
  rw [stringFormat, this]
  unfold StringFmt.Formatter.format
  cases concat (f.tokens.map (StringFmt.render env clock f.sevmap (r.given out))) <;> rfl

/-! ## Records in queues -/

/-- What a record in a queue has: the text instead of the function. -/
def kept : Value → Value
  | .function (.ok t) => .string (.at t [])
  | v => v

/-- **C107, queues: the texts.** A record in the queue of an asynchronous sink has, for each attribute, what its function gave when
the record was put there; later changes of the state of the program make no difference. -/
theorem C107_queue_text {σ : Type} (fns : Fns σ) (as : List (View × LValue)) (s s' : S σ) (bs : List (View × LValue))
    (h : intoOwnedAll fns as s = (s', .ok bs)) (out : Nat → Except Nat Str) :
    (bs.map fun b => (b.1, b.2.given out)) = (resolve fns s.world as).map fun a => (a.1, kept a.2) := by
  induction as generalizing s s' bs with
  | nil => cases h; rfl
  | cons a as ih =>
    have one : ∀ s1 v, intoOwned fns a.2 s = (s1, .ok v) →
        s1.world = a.2.after fns s.world ∧ v.given out = kept (a.2.then fns s.world) := by
      intro s1 v hv
      cases ha : a.2 with
      | function id =>
        rw [ha] at hv
        simp only [intoOwned, call] at hv
        simp only [LValue.after, LValue.then, result]
        rcases hf : fns id s.world [] with ⟨w1, _ | k, t⟩
        · rw [hf] at hv
          cases hv
          exact ⟨rfl, rfl⟩
        · rw [hf] at hv
          cases hv
      | _ => rw [ha] at hv; cases hv; exact ⟨rfl, rfl⟩
    unfold intoOwnedAll at h
    rcases ho : intoOwned fns a.2 s with ⟨s1, e | v⟩
    · rw [ho] at h; cases h
    · rw [ho] at h
      simp only at h
      rcases hr : intoOwnedAll fns as s1 with ⟨s2, e | vs⟩
      · rw [hr] at h; cases h
      · rw [hr] at h
        cases h
        obtain ⟨o1, o2⟩ := one s1 v ho
        simp only [List.map_cons, resolve, o2, ih s1 _ vs hr, o1]

/-! ## Examples -/

/-- A process. -/
def env : Env := ⟨fun _ _ => .ok [], 1, 1, ch! "p", fun _ => none⟩

/-- No time is shown. -/
def clock : StringFmt.Clock := fun _ _ _ _ => .ok (ch! "now")

/-- Function 0 counts its calls and appends a letter; function 1 clears the writer; function 2 throws. -/
def fns : Fns Nat
  | 0, n, w => (n + 1, none, w ++ [if n = 0 then 'a' else 'b'])
  | 1, n, _ => (n, none, [])
  | _, n, w => (n, some 7, w)

/-- A record with the message `hi` and such attributes. -/
def record (as : List (View × LValue)) : LRecord := ⟨.at (ch! "hi") [], 0, 0, 1, [as]⟩

/-- `{message}{x}` and the like. -/
def pattern (tokens : List Token) : StringFmt.Formatter := ⟨StringFmt.plainSeverity env, tokens⟩

/-- **C107 fails for string formatters.** A function gets the writer of the whole record: one that clears it removes what was
printed before, though with a writer of its own it would have printed nothing. -/
theorem C107_fails_string :
    ∃ (fns : Fns Nat) (env : Env) (clock : StringFmt.Clock) (f : StringFmt.Formatter) (r : LRecord) (s : S Nat),
      f.format env clock { r.bare with pack := [resolve fns s.world r.pack.flatten] } = .ok (ch! "hi")
      ∧ (stringFormat fns env clock f r s []).2 = .ok [] :=
  ⟨fns, env, clock, pattern [.message (ch! "{}"), .required (ch! "x") (ch! "{}")], record [(.at (ch! "x") [], .function 1)],
    ⟨0, []⟩, by rfl, by rfl⟩

/-- A function that is shown twice is called twice, and what it appends may differ: `a-b`. It sees what is in the writer. -/
example : stringFormat fns env clock (pattern [.required (ch! "x") (ch! "{}"), .literal ['-'], .required (ch! "x") (ch! "{}")])
    (record [(.at (ch! "x") [], .function 0)]) ⟨0, []⟩ [] = (⟨2, [(0, []), (0, ch! "a-")]⟩, .ok (ch! "a-b")) := by
  rfl

/-- A function that no placeholder shows is not called; one that throws ends the record. -/
example : stringFormat fns env clock (pattern [.literal ['-'], .required (ch! "z") (ch! "{}"), .required (ch! "x") (ch! "{}")])
    (record [(.at (ch! "x") [], .function 0), (.at (ch! "y") [], .function 1), (.at (ch! "z") [], .function 2)]) ⟨0, []⟩ []
      = (⟨0, [(2, ch! "-")]⟩, .error (.user 7)) := by
  rfl

/-- The attributes of the following examples. -/
def three : List (View × LValue) :=
  [(.at (ch! "x") [], .function 0), (.at (ch! "x") [], .function 0), (.at (ch! "y") [], .function 1)]

/-- In a queue each function is called once. -/
example : intoOwnedAll fns three ⟨0, []⟩
    = (⟨2, [(0, []), (0, []), (1, [])]⟩, .ok [(.at (ch! "x") [], .string (.at ['a'] [])), (.at (ch! "x") [], .string (.at ['b'] [])),
        (.at (ch! "y") [], .string (.at [] []))]) := by
  rfl

/-- With unique names, JSON calls the function of the first of two attributes with one name only. -/
example : (jsonFormat fns env clock (fun _ => []) ⟨true, false, none, [], [], [], [], []⟩ (record three) ⟨0, []⟩ []).1 = ⟨1, [(0, []), (1, [])]⟩ := by
  rfl

/-- TSKV calls the function of an attribute that is removed, too. -/
example : (tskvFormat fns env clock ⟨[ch! "x"], [], [], []⟩ (record three) ⟨0, []⟩ []).1.calls = [(0, []), (0, []), (1, [])] := by
  rfl

/-- Functions that append: number 0 `ok`, others throw. -/
example : Appends (σ := Nat) (fun id n w => if id = 0 then (n + 1, none, w ++ ch! "ok") else (n, some id, []))
    (fun id => if id = 0 then .ok (ch! "ok") else .error id) := by
  intro id s w
  by_cases h : id = 0 <;> simp [h]

end Blackhole.Lazy
