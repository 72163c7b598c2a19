import Verif.ProcName.Props
import Verif.Fmt.Parse

/-! # The name of the process on macOS (src/procname.cpp:24-33) -/

namespace Blackhole.ProcName

/-! ## Model -/

/-- The array `path`, the static variable `name` (a view into that array: its length), what the system knows as the name of the
process (`none` if it does not tell), the number of the process, and what was shown (src/procname.cpp:25, 40). -/
structure MacSt where
  path : Str
  name : Option Nat
  system : Option Str
  pid : Nat
  shown : List Out

/-- What the process does: it formats a record with `{process:s}` (src/formatter/string.cpp:192-194), makes a system log sink
(src/sink/syslog.cpp:17-23), or something changes the name that the system knows (read in src/procname.cpp:27). -/
inductive MacOp where
  | print
  | construct
  | rename (answer : Option Str)

/-- `PROC_PIDPATHINFO_MAXSIZE`, four times `MAXPATHLEN` (src/procname.cpp:25). -/
def pathSize : Nat := 4096

/-- Characters and a NUL are written to the beginning of the array, cut to its size (src/procname.cpp:27, 30). -/
def store (path t : Str) : Str := t.take (pathSize - 1) ++ '\x00' :: path.drop ((t.take (pathSize - 1)).length + 1)

/-- `strlen(path)` (src/procname.cpp:28). -/
def strlen (path : Str) : Except UB Nat :=
  if '\x00' ∈ path then .ok (path.takeWhile (· ≠ '\x00')).length else .error .outOfBounds

/-- `procname()` with `procname(pid_t)` (src/procname.cpp:25-32, 39-42). `proc_name` writes the name and returns its length, or
returns zero; `snprintf` returns the length of the whole text. -/
def MacSt.procname (s : MacSt) : Except UB (Nat × MacSt) :=
  match s.name with
  | some n => .ok (n, s)
  | none =>
    let written := match s.system with
      | some t => t
      | none => []
    if written.length > 0 then
      match strlen (store s.path written) with
      | .error u => .error u
      | .ok n => .ok (n, { s with path := store s.path written, name := some n })
    else
      let digits := Nat.toDigits 10 s.pid
      .ok (digits.length, { s with path := store s.path digits, name := some digits.length })

/-- One thing that the process does (src/formatter/string.cpp:192-194, which prints a C string; src/sink/syslog.cpp:20, which copies the view). -/
def MacSt.step (s : MacSt) : MacOp → Except UB MacSt
  | .print =>
    match s.procname with
    | .error u => .error u
    | .ok (_, s) =>
      if '\x00' ∈ s.path then .ok { s with shown := s.shown ++ [.printed (s.path.takeWhile (· ≠ '\x00'))] }
      else .error .outOfBounds
  | .construct =>
    match s.procname with
    | .error u => .error u
    | .ok (n, s) => if n ≤ s.path.length then .ok { s with shown := s.shown ++ [.identity (s.path.take n)] } else .error .outOfBounds
  | .rename answer => .ok { s with system := answer }

/-- All of it in order (src/procname.cpp:39-42). -/
def MacSt.run : MacSt → List MacOp → Except UB MacSt
  | s, [] => .ok s
  | s, op :: ops =>
    match s.step op with
    | .error u => .error u
    | .ok s => s.run ops

/-- A process starts (src/procname.cpp:25, 40): the array is static, thus zero. -/
def MacSt.start (system : Option Str) (pid : Nat) : MacSt :=
  { path := List.replicate pathSize '\x00', name := none, system := system, pid := pid, shown := [] }

/-! ## Specification -/

/-- The name of the process, if the system tells it, and the decimal number of the process otherwise. -/
def macName (pid : Nat) : Option Str → Str
  | some (c :: t) => c :: t
  | _ => Nat.toDigits 10 pid

/-- The same, as the system tells it when the name is used for the first time. -/
def firstName (pid : Nat) : Option Str → List MacOp → Str
  | _, .rename answer :: ops => firstName pid answer ops
  | system, _ => macName pid system

/-- What an operation shows if the name is `t`. -/
def MacOp.shows (t : Str) : MacOp → List Out
  | .print => [.printed t]
  | .construct => [.identity t]
  | .rename _ => []

/-- The names that the system tells are C strings that fit (macOS: at most 31 characters). -/
def Fits (system : Option Str) : Prop := ∀ t, system = some t → '\x00' ∉ t ∧ t.length < 4096

/-! ## Lemmas -/

/-- The array holds the name. -/
def Holds (path t : Str) : Prop := ∃ behind, path = t ++ '\x00' :: behind ∧ '\x00' ∉ t

theorem holds_store {path t : Str} (h1 : '\x00' ∉ t) (h2 : t.length < 4096) : Holds (store path t) t := by
  have : t.take (pathSize - 1) = t := List.take_of_length_le (by simp only [pathSize]; omega)
  exact ⟨_, by rw [store, this], h1⟩

theorem Holds.strlen {path t : Str} (h : Holds path t) : ProcName.strlen path = .ok t.length := by
  obtain ⟨b, rfl, hz⟩ := h
  rw [ProcName.strlen, if_pos (by simp), takeWhile_text hz]

theorem digits_fit {pid : Nat} (h : pid < 2 ^ 31) : '\x00' ∉ Nat.toDigits 10 pid ∧ (Nat.toDigits 10 pid).length < 4096 := by
  refine ⟨Fmt.toDigits_no_nul pid, ?_⟩
  have : (Nat.toDigits 10 pid).length ≤ 10 := (Nat.length_toDigits_le_iff (by omega) (by omega)).2 (by omega)
  omega

theorem mac_first {s : MacSt} (hp : s.pid < 2 ^ 31) (hf : Fits s.system) (hn : s.name = none) :
    ∃ path, s.procname = .ok ((macName s.pid s.system).length,
      { s with path := path, name := some (macName s.pid s.system).length }) ∧ Holds path (macName s.pid s.system) := by
  obtain ⟨d1, d2⟩ := digits_fit hp
  unfold MacSt.procname
  rw [hn]
  cases hs : s.system with
  | none => exact ⟨store s.path _, by simp [macName], holds_store d1 d2⟩
  | some t =>
    cases t with
    | nil => exact ⟨store s.path _, by simp [macName], holds_store d1 d2⟩
    | cons c t =>
      obtain ⟨h1, h2⟩ := hf _ hs
      have h3 : Holds (store s.path (c :: t)) (c :: t) := holds_store h1 h2
      refine ⟨_, ?_, h3⟩
      simp only [h3.strlen, List.length_cons, Nat.zero_lt_succ, gt_iff_lt, if_true, macName]

theorem mac_show {s a : MacSt} {t : Str} (hp : s.procname = .ok (t.length, a)) (hh : Holds a.path t) :
    s.step .print = .ok { a with shown := a.shown ++ [.printed t] } ∧
    s.step .construct = .ok { a with shown := a.shown ++ [.identity t] } := by
  obtain ⟨b, hb, hz⟩ := hh
  constructor
  · simp only [MacSt.step, hp, hb, takeWhile_text hz]
    rw [if_pos (by simp)]
  · simp only [MacSt.step, hp, hb, List.take_left]
    rw [if_pos (by simp)]

theorem mac_later {t : Str} (ops : List MacOp) : ∀ s : MacSt, s.name = some t.length → Holds s.path t →
    ∃ s', s.run ops = .ok s' ∧ s'.shown = s.shown ++ ops.flatMap (MacOp.shows t) := by
  induction ops with
  | nil => intro s _ _; exact ⟨s, rfl, by simp⟩
  | cons op ops ih =>
    intro s hn hh
    obtain ⟨e1, e2⟩ := mac_show (s := s) (a := s) (t := t) (by simp only [MacSt.procname, hn]) hh
    cases op with
    | print =>
      obtain ⟨s', a1, a2⟩ := ih { s with shown := s.shown ++ [.printed t] } hn hh
      exact ⟨s', by simp only [MacSt.run, e1]; exact a1, by rw [a2]; simp [MacOp.shows]⟩
    | construct =>
      obtain ⟨s', a1, a2⟩ := ih { s with shown := s.shown ++ [.identity t] } hn hh
      exact ⟨s', by simp only [MacSt.run, e2]; exact a1, by rw [a2]; simp [MacOp.shows]⟩
    | rename answer =>
      obtain ⟨s', a1, a2⟩ := ih { s with system := answer } hn hh
      exact ⟨s', by simp only [MacSt.run, MacSt.step]; exact a1, by rw [a2]; simp [MacOp.shows]⟩

theorem mac_run (ops : List MacOp) : ∀ s : MacSt, s.pid < 2 ^ 31 → Fits s.system →
    (∀ answer, MacOp.rename answer ∈ ops → Fits answer) → s.name = none →
    ∃ s', s.run ops = .ok s' ∧ s'.shown = s.shown ++ ops.flatMap (MacOp.shows (firstName s.pid s.system ops)) := by
  induction ops with
  | nil => intro s _ _ _ _; exact ⟨s, rfl, by simp⟩
  | cons op ops ih =>
    intro s hp hf hr hn
    obtain ⟨path, h1, h2⟩ := mac_first hp hf hn
    obtain ⟨e1, e2⟩ := mac_show h1 h2
    cases op with
    | print =>
      obtain ⟨s', a1, a2⟩ := mac_later ops
        { s with path := path, name := some (macName s.pid s.system).length, shown := s.shown ++ [.printed (macName s.pid s.system)] }
        rfl h2
      exact ⟨s', by simp only [MacSt.run, e1]; exact a1, by rw [a2]; simp [MacOp.shows, firstName]⟩
    | construct =>
      obtain ⟨s', a1, a2⟩ := mac_later ops
        { s with path := path, name := some (macName s.pid s.system).length, shown := s.shown ++ [.identity (macName s.pid s.system)] }
        rfl h2
      exact ⟨s', by simp only [MacSt.run, e2]; exact a1, by rw [a2]; simp [MacOp.shows, firstName]⟩
    | rename answer =>
      obtain ⟨s', a1, a2⟩ := ih { s with system := answer } hp (hr answer (by simp)) (fun b hb => hr b (by simp [hb])) hn
      exact ⟨s', by simp only [MacSt.run, MacSt.step]; exact a1, by rw [a2]; simp [MacOp.shows, firstName]⟩

/-! ## The property -/

/-- **C106, macOS.** `{process:s}` and the identities of system log sinks are the name that the system tells when one of them
is used for the first time, or the decimal number of the process if the system tells none then. Nothing later changes it, and
nothing is undefined. -/
theorem C106_mac (system : Option Str) (pid : Nat) (ops : List MacOp) (hp : pid < 2 ^ 31) (hf : Fits system)
    (hr : ∀ answer, MacOp.rename answer ∈ ops → Fits answer) :
    ∃ s, (MacSt.start system pid).run ops = .ok s ∧ s.shown = ops.flatMap (MacOp.shows (firstName pid system ops)) := by
  obtain ⟨s, h1, h2⟩ := mac_run ops (MacSt.start system pid) hp hf hr rfl
  exact ⟨s, h1, by rw [h2]; rfl⟩

/-! The system tells no name at first, and a name after the first use. -/
example : ∃ s, (MacSt.start none 4711).run [.rename (some []), .print, .rename (some (ch! "app")), .construct] = .ok s
    ∧ s.shown = [.printed (ch! "4711"), .identity (ch! "4711")] :=
  C106_mac none 4711 _ (by decide) (fun _ h => by cases h) (fun a ha => by
    simp only [List.mem_cons, MacOp.rename.injEq, reduceCtorEq, false_or, List.not_mem_nil, or_false] at ha
    rcases ha with rfl | rfl <;> (intro t ht; cases ht; decide))

example : ∃ s, (MacSt.start (some (ch! "app")) 4711).run [.construct, .rename none, .print] = .ok s
    ∧ s.shown = [.identity (ch! "app"), .printed (ch! "app")] :=
  C106_mac (some (ch! "app")) 4711 _ (by decide) (fun t h => by cases h; decide) (fun a ha => by
    simp only [List.mem_cons, MacOp.rename.injEq, reduceCtorEq, false_or, List.not_mem_nil, or_false] at ha
    subst ha; intro t ht; cases ht)

end Blackhole.ProcName
