import Verif.Reenter.Lemmas

/-! # Callbacks that use the library again: what every call does -/

namespace Blackhole.Reenter

/-- What instructions may do, if configuration `c` has the handlers `H c`. -/
inductive Future (H : Nat → List HandlerKind) : List Instr → List What → Prop
  | done : Future H [] [.returned]
  | rethrow {is : List Instr} : Future H (.rethrow :: is) [.threw]
  | lock {m : Mutex} {is : List Instr} {fs : List What} : Future H is fs → Future H (.lock m :: is) fs
  | unlock {m : Mutex} {is : List Instr} {fs : List What} : Future H is fs → Future H (.unlock m :: is) fs
  | user {w : Who} {r : Reply} {is : List Instr} {fs : List What} : (∀ f, w ≠ .filter f) →
      (r = .throws → w.mayThrow = true) → Future H (resume r is) fs → Future H (.user w :: is) fs
  | filter {f : Nat} {r : Reply} {is : List Instr} {fs : List What} :
      Future H (resume r is) fs → Future H (.user (.filter f) :: is) (.verdict f r :: fs)
  | io {is : List Instr} {fs : List What} : Future H is fs → Future H (.io :: is) fs
  | ioFails {is : List Instr} {fs : List What} : Future H (unwind is) fs → Future H (.io :: is) fs
  | load {l c : Nat} {is : List Instr} {fs : List What} :
      Future H (.unlock (.pointer l) :: .lock (.config c) :: .copy c :: is) fs → 
      Future H (.load l :: is) (.chose l c :: fs)
  | copy {c f : Nat} {is : List Instr} {fs : List What} :
      Future H (.user .copyFilter :: .unlock (.config c) :: .ask f (H c) :: is) fs → 
      Future H (.copy c :: is) (.copied c f :: fs)
  | ask {f : Nat} {hs : List HandlerKind} {is : List Instr} {fs : List What} :
      Future H (.user (.filter f) :: .deliver hs :: .user .dropCopy :: is) fs → Future H (.ask f hs :: is) fs
  | deliver {hs : List HandlerKind} {is : List Instr} {fs : List What} :
      Future H (.user .message :: loop 0 hs ++ is) fs → Future H (.deliver hs :: is) fs
  | handle {i : Nat} {is : List Instr} {fs : List What} : Future H is fs → Future H (.handle i :: is) (.handling i :: fs)
  | caught {i : Nat} {is : List Instr} {fs : List What} : Future H is fs → Future H (.caught i :: is) (.handled i :: fs)
  | report {i : Nat} {is : List Instr} {fs : List What} : Future H is fs → Future H (.report i :: is) (.failed i :: fs)
  | emit {tty : Bool} {is : List Instr} {fs : List What} : Future H (emitCode tty ++ is) fs → Future H (.emit tty :: is) fs
  | loadFilter {l f c : Nat} {is : List Instr} {fs : List What} :
      Future H (.unlock (.pointer l) :: .lock (.config c) :: .setFilter c f :: .user .dropFilter :: .unlock (.config c)
        :: .lock (.pointer l) :: .store l c :: .user .dropConfig :: .unlock (.pointer l) :: is) fs →
      Future H (.loadFilter l f :: is) (.chose l c :: fs)
  | setFilter {c f : Nat} {is : List Instr} {fs : List What} : Future H is fs →
      Future H (.setFilter c f :: is) (.replaced c f :: fs)
  | loadAssign {dst src c : Nat} {is : List Instr} {fs : List What} :
      Future H (.unlock (.pointer src) :: .lock (.pointer dst) :: .store dst c :: .user .dropConfig
        :: .unlock (.pointer dst) :: .user .dropCopy :: is) fs → Future H (.loadAssign dst src :: is) (.chose src c :: fs)
  | store {l c : Nat} {is : List Instr} {fs : List What} : Future H is fs → Future H (.store l c :: is) (.stored l c :: fs)

variable {H : Nat → List HandlerKind}

/-- Instructions of a handler. -/
def Instr.quiet : Instr → Bool
  | .lock _ | .unlock _ | .io | .emit _ => true
  | .user .dropCopy => false
  | .user (.filter _) => false
  | .user _ => true
  | _ => false

theorem quiet_sink (k : SinkKind) : ∀ i ∈ k.code, i.quiet = true := by cases k <;> simp [SinkKind.code, Instr.quiet]

theorem quiet_handler (k : HandlerKind) : ∀ i ∈ k.code, i.quiet = true := by
  cases k with
  | blocking ks =>
    intro i hi
    simp only [HandlerKind.code, List.mem_cons, List.mem_flatMap] at hi
    rcases hi with rfl | ⟨k, -, hk⟩
    · rfl
    · exact quiet_sink k i hk
  | dev => simp [HandlerKind.code, Instr.quiet]
  | custom => simp [HandlerKind.code, Instr.quiet]

theorem quiet_emit (tty : Bool) : ∀ i ∈ emitCode tty, i.quiet = true := by cases tty <;> simp [emitCode, Instr.quiet]

theorem discard_quiet {is rest : List Instr} {j : Nat} (hq : ∀ i ∈ is, i.quiet = true) :
    discard (is ++ .caught j :: rest) = .report j :: rest := by
  induction is with
  | nil => rfl
  | cons i is ih =>
    have hi := hq i (by simp)
    have := ih (fun x hx => hq x (by simp [hx]))
    cases i <;> simp [Instr.quiet] at hi <;> simp only [List.cons_append, discard, this]
    rename_i w
    cases w <;> simp [Instr.quiet] at hi <;> simp only [discard, this]

theorem unwind_quiet {is rest : List Instr} {j : Nat} (hq : ∀ i ∈ is, i.quiet = true) :
    unwind (is ++ .caught j :: rest) = .report j :: rest ∨
      ∃ m, unwind (is ++ .caught j :: rest) = .unlock m :: .report j :: rest := by
  induction is with
  | nil => exact .inl rfl
  | cons i is ih =>
    have hi := hq i (by simp)
    have hq' : ∀ x ∈ is, x.quiet = true := fun x hx => hq x (by simp [hx])
    have := ih hq'
    cases i <;> simp [Instr.quiet] at hi <;> simp only [List.cons_append, unwind]
    case lock m => exact .inl (discard_quiet hq')
    case unlock m => exact .inr ⟨m, by rw [discard_quiet hq']⟩
    case user w => cases w <;> simp [Instr.quiet] at hi <;> simpa only [unwind] using this
    case io => exact this
    case emit => exact this

theorem future_report {rest : List Instr} {j : Nat} {fs : List What} (h : Future H (.report j :: rest) fs) :
    ∃ fs', Future H rest fs' ∧ fs = .failed j :: fs' := by cases h with | report h => exact ⟨_, h, rfl⟩

theorem future_unwound {is rest : List Instr} {j : Nat} {fs : List What} (hq : ∀ i ∈ is, i.quiet = true)
    (h : Future H (unwind (is ++ .caught j :: rest)) fs) : ∃ fs', Future H rest fs' ∧ fs = .failed j :: fs' := by
  rcases unwind_quiet (rest := rest) (j := j) hq with e | ⟨m, e⟩
  · rw [e] at h; exact future_report h
  · rw [e] at h
    cases h with | unlock h => exact future_report h

theorem resume_no {is rest : List Instr} {j : Nat} (hq : ∀ i ∈ is, i.quiet = true) :
    ∃ is', (∀ i ∈ is', i.quiet = true) ∧ resume .no (is ++ .caught j :: rest) = is' ++ .caught j :: rest := by
  cases is with
  | nil => exact ⟨[], by simp, rfl⟩
  | cons i is =>
    have hi := hq i (by simp)
    have hq' : ∀ x ∈ is, x.quiet = true := fun x hx => hq x (by simp [hx])
    cases i <;> simp [Instr.quiet] at hi
    case emit => exact ⟨is, hq', rfl⟩
    all_goals exact ⟨_, hq, rfl⟩

/-- A handler does its work or fails, and then the next one is called. -/
theorem future_handler {is rest : List Instr} {j : Nat} {fs : List What} (hq : ∀ i ∈ is, i.quiet = true)
    (h : Future H (is ++ .caught j :: rest) fs) :
    ∃ fs', Future H rest fs' ∧ (fs = .handled j :: fs' ∨ fs = .failed j :: fs') := by
  generalize hL : is ++ Instr.caught j :: rest = L at h
  induction h generalizing is with
  | @caught i is' fs' h' ih =>
    cases is with
    | nil => simp only [List.nil_append, List.cons.injEq, Instr.caught.injEq] at hL
             obtain ⟨rfl, rfl⟩ := hL
             exact ⟨_, h', .inl rfl⟩
    | cons i' is'' =>
      simp only [List.cons_append, List.cons.injEq] at hL
      obtain ⟨rfl, rfl⟩ := hL
      have := hq (.caught i) (by simp)
      simp [Instr.quiet] at this
  | lock h' ih =>
    cases is with
    | nil => simp at hL
    | cons i' is'' =>
      simp only [List.cons_append, List.cons.injEq] at hL
      exact ih (fun x hx => hq x (by simp [hx])) hL.2
  | unlock h' ih =>
    cases is with
    | nil => simp at hL
    | cons i' is'' =>
      simp only [List.cons_append, List.cons.injEq] at hL
      exact ih (fun x hx => hq x (by simp [hx])) hL.2
  | io h' ih =>
    cases is with
    | nil => simp at hL
    | cons i' is'' =>
      simp only [List.cons_append, List.cons.injEq] at hL
      exact ih (fun x hx => hq x (by simp [hx])) hL.2
  | ioFails h' ih =>
    cases is with
    | nil => simp at hL
    | cons i' is'' =>
      simp only [List.cons_append, List.cons.injEq] at hL
      rw [← hL.2] at h'
      obtain ⟨fs', h1, h2⟩ := future_unwound (fun x hx => hq x (by simp [hx])) h'
      exact ⟨fs', h1, .inr h2⟩
  | @user w r is' fs' hw hr h' ih =>
    cases is with
    | nil => simp at hL
    | cons i' is'' =>
      simp only [List.cons_append, List.cons.injEq] at hL
      have hq' : ∀ x ∈ is'', x.quiet = true := fun x hx => hq x (by simp [hx])
      cases r with
      | yes => exact ih hq' hL.2
      | no =>
        obtain ⟨k, k1, k2⟩ := resume_no (rest := rest) (j := j) hq'
        exact ih k1 (by rw [← k2, hL.2])
      | throws =>
        rw [← hL.2] at h'
        obtain ⟨fs', h1, h2⟩ := future_unwound hq' h'
        exact ⟨fs', h1, .inr h2⟩
  | @emit tty is' fs' h' ih =>
    cases is with
    | nil => simp at hL
    | cons i' is'' =>
      simp only [List.cons_append, List.cons.injEq] at hL
      refine ih (is := emitCode tty ++ is'') ?_ (by simp [hL.2])
      intro x hx
      rcases List.mem_append.1 hx with hx | hx
      · exact quiet_emit tty x hx
      · exact hq x (by simp [hx])
  | done => cases is <;> simp at hL
  | _ =>
    cases is with
    | nil => simp at hL
    | cons i' is'' =>
      simp only [List.cons_append, List.cons.injEq] at hL
      have := hq i' (by simp)
      rw [hL.1] at this
      simp [Instr.quiet] at this

theorem future_dropCopy {fs : List What} (h : Future H [.user .dropCopy] fs) : fs = [.returned] := by
  cases h with
  | @user w r is fs hw hr h =>
    cases r with
    | throws => exact absurd (hr rfl) (by simp [Who.mayThrow])
    | yes => cases h; rfl
    | no => cases h; rfl

theorem future_loop (hs : List HandlerKind) : ∀ {i fs}, Future H (loop i hs ++ [.user .dropCopy]) fs →
    ∃ ws, Blocks i hs.length ws ∧ fs = ws ++ [.returned] := by
  induction hs with
  | nil => intro i fs h; exact ⟨[], .nil, future_dropCopy h⟩
  | cons k hs ih =>
    intro i fs h
    simp only [loop, List.cons_append, List.append_assoc] at h
    cases h with
    | handle h =>
      obtain ⟨fs', h1, h2⟩ := future_handler (quiet_handler k) h
      obtain ⟨ws, h3, h4⟩ := ih h1
      subst h4
      rcases h2 with rfl | rfl
      · exact ⟨_, .handled h3, rfl⟩
      · exact ⟨_, .failed h3, rfl⟩

theorem leave_quiet {is rest : List Instr} (hq : ∀ i ∈ is, i.quiet = true) : leave (is ++ rest) = leave rest := by
  induction is with
  | nil => rfl
  | cons i is ih =>
    have hi := hq i (by simp)
    have := ih (fun x hx => hq x (by simp [hx]))
    cases i <;> simp [Instr.quiet] at hi <;> simp only [List.cons_append, leave, this]
    rename_i w
    cases w <;> simp [Instr.quiet] at hi <;> simp only [leave, this]

theorem leave_loop (hs : List HandlerKind) : ∀ i, leave (loop i hs ++ [.user .dropCopy]) = [.user .dropCopy, .rethrow] := by
  induction hs with
  | nil => intro i; rfl
  | cons k hs ih =>
    intro i
    simp only [loop, List.cons_append, List.append_assoc, leave]
    rw [leave_quiet (quiet_handler k)]
    simp only [leave]
    exact ih _

theorem unwind_loop (hs : List HandlerKind) (i : Nat) :
    unwind (loop i hs ++ [.user .dropCopy]) = [.user .dropCopy, .rethrow] := by
  cases hs with
  | nil => rfl
  | cons k hs =>
    simp only [loop, List.cons_append, List.append_assoc, unwind]
    rw [leave_quiet (quiet_handler k)]
    simp only [leave]
    exact leave_loop _ _

theorem resume_no_loop (hs : List HandlerKind) (i : Nat) :
    resume .no (loop i hs ++ [.user .dropCopy]) = loop i hs ++ [.user .dropCopy] := by
  cases hs <;> rfl

theorem future_threw {fs : List What} (h : Future H [.user .dropCopy, .rethrow] fs) : fs = [.threw] := by
  cases h with
  | @user w r is fs hw hr h =>
    cases r with
    | throws => exact absurd (hr rfl) (by simp [Who.mayThrow])
    | yes => cases h; rfl
    | no => cases h; rfl

theorem future_deliver {hs : List HandlerKind} {fs : List What} (h : Future H [.deliver hs, .user .dropCopy] fs) :
    fs = [.threw] ∨ ∃ ws, Blocks 0 hs.length ws ∧ fs = ws ++ [.returned] := by
  cases h with
  | deliver h =>
    cases h with
    | @user w r is fs hw hr h =>
      cases r with
      | yes => exact .inr (future_loop hs h)
      | no =>
        have h : Future H (resume .no (loop 0 hs ++ [.user .dropCopy])) fs := h
        rw [resume_no_loop] at h
        exact .inr (future_loop hs h)
      | throws =>
        have h : Future H (unwind (loop 0 hs ++ [.user .dropCopy])) fs := h
        rw [unwind_loop] at h
        exact .inl (future_threw h)

theorem future_ask {hs : List HandlerKind} {f : Nat} {fs : List What} (h : Future H [.ask f hs] fs) :
    fs = [.verdict f .no, .returned] ∨ fs = [.verdict f .throws, .threw] ∨ fs = [.verdict f .yes, .threw]
      ∨ ∃ ws, Blocks 0 hs.length ws ∧ fs = .verdict f .yes :: (ws ++ [.returned]) := by
  cases h with
  | ask h =>
    cases h with
    | user hw => exact absurd rfl (hw _)
    | @filter f r is fs h =>
      cases r with
      | yes =>
        rcases future_deliver h with rfl | ⟨ws, h1, rfl⟩
        · exact .inr (.inr (.inl rfl))
        · exact .inr (.inr (.inr ⟨ws, h1, rfl⟩))
      | no => exact .inl (by rw [future_dropCopy h])
      | throws => exact .inr (.inl (by rw [future_threw h]))

theorem future_copy {c : Nat} {fs : List What} (h : Future H [.copy c] fs) :
    ∃ f, fs = [.copied c f, .threw] ∨ fs = [.copied c f, .verdict f .no, .returned]
      ∨ fs = [.copied c f, .verdict f .throws, .threw] ∨ fs = [.copied c f, .verdict f .yes, .threw]
      ∨ ∃ ws, Blocks 0 (H c).length ws ∧ fs = .copied c f :: .verdict f .yes :: (ws ++ [.returned]) := by
  cases h with
  | @copy c f is fs h =>
    cases h with
    | @user w r is fs hw hr h =>
      cases r with
      | throws => cases h with | unlock h => cases h with | rethrow => exact ⟨f, .inl rfl⟩
      | yes =>
        cases h with | unlock h =>
          rcases future_ask h with rfl | rfl | rfl | ⟨ws, h1, rfl⟩
          · exact ⟨f, .inr (.inl rfl)⟩
          · exact ⟨f, .inr (.inr (.inl rfl))⟩
          · exact ⟨f, .inr (.inr (.inr (.inl rfl)))⟩
          · exact ⟨f, .inr (.inr (.inr (.inr ⟨ws, h1, rfl⟩)))⟩
      | no =>
        cases h with | unlock h =>
          rcases future_ask h with rfl | rfl | rfl | ⟨ws, h1, rfl⟩
          · exact ⟨f, .inr (.inl rfl)⟩
          · exact ⟨f, .inr (.inr (.inl rfl))⟩
          · exact ⟨f, .inr (.inr (.inr (.inl rfl)))⟩
          · exact ⟨f, .inr (.inr (.inr (.inr ⟨ws, h1, rfl⟩)))⟩

theorem future_drop {w : Who} {is : List Instr} {fs : List What} (hw : w = .dropFilter ∨ w = .dropConfig)
    (hs : resume .no is = is) (h : Future H (.user w :: is) fs) : Future H is fs := by
  cases h with
  | @user w r is fs h1 hr h =>
    cases r with
    | throws => rcases hw with rfl | rfl <;> exact absurd (hr rfl) (by simp [Who.mayThrow])
    | yes => exact h
    | no => rwa [hs] at h
  | filter => simp at hw

/-- Everything a call does from its beginning to its end. -/
theorem future_api (a : Api) {fs : List What} (h : Future H a.code fs) :
    Complete (fun c => (H c).length) a (.called a :: fs) := by
  cases a with
  | log l =>
    cases h with | lock h => cases h with | load h => cases h with | unlock h => cases h with | lock h =>
      obtain ⟨f, rfl | rfl | rfl | rfl | ⟨ws, h1, rfl⟩⟩ := future_copy h
      · exact .copy
      · exact .rejected
      · exact .filter
      · exact .message
      · exact .accepted h1
  | filter l f =>
    cases h with | lock h => cases h with | loadFilter h => cases h with | unlock h => cases h with | lock h =>
      cases h with
      | setFilter h =>
        have h2 := future_drop (.inl rfl) rfl h
        cases h2 with | unlock h3 => cases h3 with | lock h4 => cases h4 with
          | store h5 =>
            have h6 := future_drop (.inr rfl) rfl h5
            cases h6 with | unlock h7 => cases h7 with | done => exact .setFilter
  | assign dst src =>
    simp only [Api.code] at h
    split at h
    · rename_i he; subst he; cases h; exact .self
    · rename_i hne
      cases h with | lock h => cases h with | loadAssign h => cases h with | unlock h => cases h with | lock h =>
        cases h with
        | store h =>
          have h := future_drop (.inr rfl) rfl h
          cases h with | unlock h => rw [future_dropCopy h]; exact .assign hne

end Blackhole.Reenter
