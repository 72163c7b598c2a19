import Verif.Pipeline.Lemmas
import Verif.Essentials.Props

/-! # Properties of the whole way from log calls to sinks: C65 -/

namespace Blackhole.Pipeline

open Root (HOut)
open Config (Json HasAt)

/-- **C65.** After any sequence of log calls every sink of every handler is in the state in which it is after being
given, call by call, the rendered text of the accepted records, with nothing in between, before or after; it misses a
record only if the formatter of its handler throws or if an earlier sink of its handler does. Other handlers do not
matter. -/
theorem C65_sinks (p : Process) (hs hs' : List Handler) (cs : List Call) (hrun : run p hs cs = .ok hs')
    (i : Nat) (h : Handler) (hi : hs[i]? = some h) (j : Nat) (s : Sink) (hj : h.sinks[j]? = some s) :
    ∃ gs, Both (Given p h i j) cs gs ∧ ∃ h', hs'[i]? = some h' ∧ h'.sinks[j]? = some (s.after (gs.flatMap Option.toList)) := by
  induction cs generalizing hs h s with
  | nil =>
    cases hrun
    exact ⟨[], .nil, h, hi, hj⟩
  | cons c cs ih =>
    simp only [run] at hrun
    split at hrun
    · cases hrun
    · rename_i hs1 hstep
      obtain ⟨-, hsink⟩ := step_sink hstep
      obtain ⟨h1, hi1, hf, hlen, hall⟩ := hsink i h hi
      obtain ⟨g, hg, hj1⟩ := hall j s hj
      obtain ⟨gs, hgs, h', hi', hj'⟩ := ih hs1 hrun h1 hi1 _ hj1
      refine ⟨g :: gs, .cons hg (hgs.mono fun c g => given_congr hf ?_), h', hi', ?_⟩
      · intro k s' hk
        have hlt : k < h.sinks.length := by
          rw [← hlen]; exact (List.getElem?_eq_some_iff.1 hk).1
        obtain ⟨g', -, hk'⟩ := hall k _ (List.getElem?_eq_getElem hlt)
        refine ⟨_, List.getElem?_eq_getElem hlt, ?_⟩
        rw [hk] at hk'
        cases hk'
        exact kind_after _ _
      · rw [hj', List.flatMap_cons, after_append]

/-- What a file sink did with its emits. -/
theorem after_file (path : Str) (s : File.Sink) (es : List (Reply × Int × Str)) :
    (Sink.file path s).after es = .file path (s.run (es.map fun e => (e.1.file, e.2.2))).1 := by
  induction es generalizing s with
  | nil => rfl
  | cons e es ih =>
    show ((Sink.file path s).emit e.1 e.2.1 e.2.2).1.after es = _
    have : ((Sink.file path s).emit e.1 e.2.1 e.2.2).1 = .file path (s.emit e.1.file e.2.2).1 := by
      simp only [Sink.emit]
      split
      · rename_i heq; rw [heq]
      · rename_i heq; rw [heq]
    rw [this, ih]
    rfl

theorem after_console (k : Console.Sink) (out : Str) (es : List (Reply × Int × Str)) :
    (Sink.console k out).after es = .console k (out ++ es.flatMap fun e => k.output e.1.tty e.2.1 e.2.2) := by
  induction es generalizing out with
  | nil => simp [Sink.after]
  | cons e es ih =>
    show (Sink.console k (out ++ k.output e.1.tty e.2.1 e.2.2)).after es = _
    rw [ih]
    simp

/-- **C65, files.** Whatever the file system answers: the files of a file sink that starts fresh hold the lines of those
emits that it was given and that returned. -/
theorem C65_file (p : Process) (hs hs' : List Handler) (cs : List Call) (hrun : run p hs cs = .ok hs')
    (i : Nat) (h : Handler) (hi : hs[i]? = some h) (j : Nat) (path : Str) (r : File.RotateFactory)
    (f : File.FlusherFactory) (hj : h.sinks[j]? = some (.file path (File.Sink.init r f))) :
    ∃ gs, Both (Given p h i j) cs gs ∧ ∃ h' s outs, hs'[i]? = some h' ∧ h'.sinks[j]? = some (.file path s)
      ∧ (File.Sink.init r f).run ((gs.flatMap Option.toList).map fun e => (e.1.file, e.2.2)) = (s, outs)
      ∧ File.contents s.streams
        = File.deliveredLines ((gs.flatMap Option.toList).map fun e => (e.1.file, e.2.2)) outs := by
  obtain ⟨gs, h1, h', h2, h3⟩ := C65_sinks p hs hs' cs hrun i h hi j _ hj
  rw [after_file] at h3
  exact ⟨gs, h1, h', _, _, h2, h3, rfl, File.C14_lines r f _⟩

/-- What a call has to say to a formatter: the text, or nothing if the call is not accepted. -/
def Says (p : Process) (f : Essentials.Formatter) (c : Call) : Option Str → Prop
  | some text => ∃ r, Accepted p c r ∧ Renders p c f r text
  | none => ∀ r, ¬ Accepted p c r

theorem given_says {p : Process} {h : Handler} {i j : Nat} {c : Call} {g : Option (Reply × Int × Str)} {l : Option Str}
    (hg : Given p h i j c g) (hl : Says p h.formatter c l)
    (hok : ∀ k s, h.sinks[k]? = some s → ¬ Fails (c.replies i k) s) :
    g = l.map fun text => (c.replies i j, c.severity, text) := by
  cases hg with
  | emitted a b =>
    cases l with
    | none => exact absurd a (hl _)
    | some text =>
      obtain ⟨r, a', b'⟩ := hl
      cases accepted_unique a a'
      rw [renders_iff] at b b'
      rw [b] at b'
      cases b'
      rfl
  | notAccepted a =>
    cases l with
    | none => rfl
    | some text =>
      obtain ⟨r, a', -⟩ := hl
      exact absurd a' (a r)
  | notRendered a b =>
    cases l with
    | none => exact absurd a (hl _)
    | some text =>
      obtain ⟨r, a', b'⟩ := hl
      cases accepted_unique a a'
      exact absurd b' (b _)
  | earlier a b d => exact absurd d (hok _ _ b)

/-- **C65, nothing is lost.** If no sink of the handler fails and its formatter gives a text for every accepted record,
the files hold exactly one line for every accepted call, in the order of the calls. -/
theorem C65_every_line (p : Process) (hs hs' : List Handler) (cs : List Call) (hrun : run p hs cs = .ok hs')
    (i : Nat) (h : Handler) (hi : hs[i]? = some h) (j : Nat) (path : Str) (r : File.RotateFactory)
    (f : File.FlusherFactory) (hj : h.sinks[j]? = some (.file path (File.Sink.init r f)))
    (hok : ∀ c ∈ cs, ∀ k s, h.sinks[k]? = some s → ¬ Fails (c.replies i k) s)
    (texts : List (Option Str)) (hsays : Both (Says p h.formatter) cs texts) :
    ∃ h' s, hs'[i]? = some h' ∧ h'.sinks[j]? = some (.file path s)
      ∧ File.contents s.streams = texts.flatMap fun t => (t.map (· ++ ['\n'])).getD [] := by
  obtain ⟨gs, h1, h', s, outs, h2, h3, h4, -⟩ := C65_file p hs hs' cs hrun i h hi j path r f hj
  refine ⟨h', s, h2, h3, ?_⟩
  have hkey : ∀ x ∈ (gs.flatMap Option.toList).map fun e => (e.1.file, e.2.2), x.1.opened ≠ none ∧ x.1.recorded ≠ none := by
    clear h4 hrun
    induction h1 generalizing texts with
    | nil => intro x hx; cases hx
    | cons hg _ ih =>
      cases hsays with
      | @cons _ b _ _ hl hrest =>
        have ih := ih (fun c hc => hok c (List.mem_cons_of_mem _ hc)) _ hrest
        have hg := given_says hg hl (hok _ List.mem_cons_self)
        subst hg
        intro x hx
        rw [List.flatMap_cons, List.map_append] at hx
        rcases List.mem_append.1 hx with hx | hx
        · have hnf := hok _ List.mem_cons_self j _ hj
          cases b with
          | none => simp at hx
          | some text =>
            simp at hx
            subst hx
            simpa only [Fails, not_or] using hnf
        · exact ih x hx
  have := File.C14_nothing_dropped r f _ hkey
  rw [h4] at this
  rw [this]
  clear this hkey h4 hrun
  induction h1 generalizing texts with
  | nil => cases hsays; rfl
  | cons hg _ ih =>
    cases hsays with
    | @cons _ b _ _ hl hrest =>
      have ih := ih (fun c hc => hok c (List.mem_cons_of_mem _ hc)) _ hrest
      have hg := given_says hg hl (hok _ List.mem_cons_self)
      subst hg
      cases b with
      | none => simpa using ih
      | some text => simpa using ih

/-- **C65, consoles.** The same for a console sink; it has its own filter, and colours if the stream is a terminal (C36,
C37). -/
theorem C65_console (p : Process) (hs hs' : List Handler) (cs : List Call) (hrun : run p hs cs = .ok hs')
    (i : Nat) (h : Handler) (hi : hs[i]? = some h) (j : Nat) (k : Console.Sink)
    (hj : h.sinks[j]? = some (.console k []))
    (hok : ∀ c ∈ cs, ∀ k s, h.sinks[k]? = some s → ¬ Fails (c.replies i k) s)
    (texts : List (Option Str)) (hsays : Both (Says p h.formatter) cs texts) :
    ∃ h', hs'[i]? = some h' ∧ h'.sinks[j]? = some (.console k ((cs.zip texts).flatMap fun x =>
      (x.2.map fun t => k.output (x.1.replies i j).tty x.1.severity t).getD [])) := by
  obtain ⟨gs, h1, h', h2, h3⟩ := C65_sinks p hs hs' cs hrun i h hi j _ hj
  refine ⟨h', h2, ?_⟩
  rw [h3, after_console]
  congr 2
  rw [List.nil_append]
  clear h3 hrun
  induction h1 generalizing texts with
  | nil => cases hsays; rfl
  | cons hg _ ih =>
    cases hsays with
    | @cons _ b _ _ hl hrest =>
      have ih := ih (fun c hc => hok c (List.mem_cons_of_mem _ hc)) _ hrest
      have hg := given_says hg hl (hok _ List.mem_cons_self)
      subst hg
      cases b with
      | none => simpa using ih
      | some text => simpa using ih

theorem after_other (k : Essentials.Sink) (given : List Str) (es : List (Reply × Int × Str)) :
    (Sink.other k given).after es = .other k (given ++ es.map fun e => e.2.2) := by
  induction es generalizing given with
  | nil => simp [Sink.after]
  | cons e es ih =>
    show (Sink.other k (given ++ [e.2.2])).after es = _
    rw [ih]
    simp

/-- **C65, other sinks.** A socket, the system logger or an asynchronous sink is given, each once and in order, the texts of
the accepted calls that are rendered, if no sink of its handler throws. -/
theorem C65_other (p : Process) (hs hs' : List Handler) (cs : List Call) (hrun : run p hs cs = .ok hs')
    (i : Nat) (h : Handler) (hi : hs[i]? = some h) (j : Nat) (k : Essentials.Sink)
    (hj : h.sinks[j]? = some (.other k []))
    (hok : ∀ c ∈ cs, ∀ k s, h.sinks[k]? = some s → ¬ Fails (c.replies i k) s)
    (texts : List (Option Str)) (hsays : Both (Says p h.formatter) cs texts) :
    ∃ h', hs'[i]? = some h' ∧ h'.sinks[j]? = some (.other k (texts.flatMap Option.toList)) := by
  obtain ⟨gs, h1, h', h2, h3⟩ := C65_sinks p hs hs' cs hrun i h hi j _ hj
  refine ⟨h', h2, ?_⟩
  rw [h3, after_other]
  congr 2
  rw [List.nil_append]
  clear h3 hrun
  induction h1 generalizing texts with
  | nil => cases hsays; rfl
  | cons hg _ ih =>
    cases hsays with
    | @cons _ b _ _ hl hrest =>
      have ih := ih (fun c hc => hok c (List.mem_cons_of_mem _ hc)) _ hrest
      have hg := given_says hg hl (hok _ List.mem_cons_self)
      subst hg
      cases b with
      | none => simpa using ih
      | some text => simpa using ih

theorem roots_get (p : Process) (c : Call) (hs : List Handler) : (c.env p hs).inner.handlers.length = hs.length :=
  roots_length p c 0 hs

/-- **C65, calls succeed.** A sequence of calls never ends in undefined behaviour or fails to compile if each call has
its arguments in the right order, is made in an intact scope, and formatting is defined for its message and in each
handler. In particular no exception of a handler or sink stops it. -/
theorem C65_runs (p : Process) (hs : List Handler) (cs : List Call)
    (h1 : ∀ c ∈ cs, ∃ values trailing scopes, c.args = Facade.arguments values trailing
      ∧ c.world.scoped c.thread c.logger = .ok scopes
      ∧ (values ≠ [] → ∀ u, Facade.writeAll p.env.fd c.pattern values ≠ .error (.ub u)))
    (h2 : ∀ c ∈ cs, ∀ h ∈ hs, ∀ r seen u, Accepted p c r → SeenAs p r seen →
      render p c.lwp seen h.formatter ≠ .error (.ub u) ∧ render p c.lwp seen h.formatter ≠ .error (.fmt (.ub u))) :
    ∃ hs', run p hs cs = .ok hs' := by
  induction cs generalizing hs with
  | nil => exact ⟨hs, rfl⟩
  | cons c cs ih =>
    have hstep : ∃ hs1, step p hs c = .ok hs1 := by
      obtain ⟨values, trailing, scopes, ha, hsc, hw⟩ := h1 c List.mem_cons_self
      have hlog : ∃ res, Facade.log p.env.fd (c.env p hs) c.lg c.severity c.pattern c.args = .ok res := by
        rw [ha]
        by_cases hv : values = []
        · subst hv
          have hcons : ∃ res, Root.consume c.world c.thread c.logger ⟨c.filter, roots p c 0 hs⟩ c.now c.severity
              c.pattern.text (trailing.toList ++ c.lg.wrappers.map viewsOf) .null = .ok res := by
            simp only [Root.consume, hsc, bind, Except.bind]
            split <;> exact ⟨_, rfl⟩
          obtain ⟨res, hres⟩ := hcons
          refine ⟨res, ?_⟩
          cases trailing with
          | none =>
            show Facade.lift (c.lg.logMsg (c.env p hs) c.severity c.pattern.text) = .ok res
            rw [Root.logMsg_eq, Root.logPack_eq]
            exact congrArg Facade.lift hres
          | some l =>
            show Facade.lift (c.lg.logPack (c.env p hs) c.severity c.pattern.text [l]) = .ok res
            rw [Root.logPack_eq]
            exact congrArg Facade.lift hres
        · rw [Facade.log_arguments _ _ _ _ _ _ _ hv]
          have hcons : ∃ res, c.lg.logLazy (c.env p hs) c.severity c.pattern.text
              (Facade.supplier (Facade.writeAll p.env.fd c.pattern values)) trailing.toList = .ok res := by
            rw [Root.logLazy_eq]
            have hsc' : (c.env p hs).world.scoped (c.env p hs).thread (c.env p hs).logger = .ok scopes := hsc
            simp only [Root.consume, hsc', bind, Except.bind]
            split
            · exact ⟨_, rfl⟩
            · exact ⟨_, rfl⟩
            · split <;> exact ⟨_, rfl⟩
          obtain ⟨res, hres⟩ := hcons
          refine ⟨res, ?_⟩
          unfold Facade.callLazy
          simp only [hres]
          split
          · rename_i u _ hu
            exact absurd hu (hw hv u)
          · rfl
      obtain ⟨res, hlog⟩ := hlog
      unfold step
      rw [hlog]
      simp only
      rcases log_calls hlog with ⟨r, hacc, hcalls⟩ | ⟨-, hcalls⟩
      · rw [hcalls, roots_length, List.range_eq_range']
        have happ : ∀ n k (hs0 : List Handler), k + n = hs0.length → (∀ h ∈ hs0, ∃ g ∈ hs, g.formatter = h.formatter) →
            ∃ hs1, apply p c ((List.range' k n).map fun i => (i, r)) hs0 = .ok hs1 := by
          intro n
          induction n with
          | zero => intro k hs0 _ _; exact ⟨hs0, rfl⟩
          | succ n ihn =>
            intro k hs0 hk hmem
            have hlt : k < hs0.length := by omega
            have hget := List.getElem?_eq_getElem hlt
            simp only [List.range'_succ, List.map_cons, apply, hget]
            obtain ⟨g, hg, hgf⟩ := hmem _ (List.getElem_mem hlt)
            have hnub := fun u => h2 c List.mem_cons_self g hg r _ u hacc (seen_iff.2 rfl)
            have hh : ∃ x, (hs0[k]).handle p c.lwp (c.replies k) (recordOf p r) = .ok x := by
              unfold Handler.handle
              rw [← hgf]
              split
              · rename_i u hu; exact absurd hu (hnub u).1
              · rename_i u hu; exact absurd hu (hnub u).2
              · exact ⟨_, rfl⟩
              · exact ⟨_, rfl⟩
              · exact ⟨_, rfl⟩
              · exact ⟨_, rfl⟩
            obtain ⟨⟨h', o⟩, hh⟩ := hh
            simp only [hh]
            refine ihn (k + 1) _ (by simp; omega) ?_
            intro x hx
            rcases List.mem_or_eq_of_mem_set hx with hx | rfl
            · exact hmem x hx
            · exact ⟨g, hg, by rw [hgf]; exact ((handle_spec hh).1).symm⟩
        obtain ⟨hs1, e⟩ := happ hs.length 0 hs (by omega) fun h hm => ⟨h, hm, rfl⟩
        rw [e]
        exact ⟨_, rfl⟩
      · rw [hcalls]
        exact ⟨_, rfl⟩
    obtain ⟨hs1, hstep⟩ := hstep
    simp only [run, hstep]
    refine ih hs1 (fun c hc => h1 c (List.mem_cons_of_mem _ hc)) ?_
    intro c' hc' h hm r seen u hacc hseen
    obtain ⟨hlen, hsink⟩ := step_sink hstep
    obtain ⟨i, hi⟩ := List.getElem?_of_mem hm
    have hlt : i < hs.length := by rw [← hlen]; exact (List.getElem?_eq_some_iff.1 hi).1
    obtain ⟨h', hi', hf, -⟩ := hsink i _ (List.getElem?_eq_getElem hlt)
    rw [hi] at hi'
    cases hi'
    rw [hf]
    exact h2 c' (List.mem_cons_of_mem _ hc') _ (List.getElem_mem hlt) r seen u hacc hseen

/-- **C65, from the configuration.** A document that describes handlers under the name of a logger builds that logger,
and after any sequence of log calls each file that the document names holds exactly one line for each accepted call,
rendered by the formatter that the document describes for that handler. -/
theorem C65_configured (p : Process) (cd : Str → Option Nat) (doc : Json) (name : Str) (hname : '\x00' ∉ name)
    (hvs : List Json) (ds : List (Essentials.Formatter × List Essentials.Sink)) (hd : HasAt doc [.key name] (.arr hvs))
    (h : Both (fun v d => Essentials.DescribesHandler p.env cd v d.1 d.2) hvs ds) :
    ∃ handlers, (Essentials.configured p.env cd).build doc name = .ok handlers
      ∧ ∀ (cs : List Call) (hs' : List Handler), run p (handlers.map Handler.start) cs = .ok hs' →
        ∀ (i : Nat) fmt sinks, ds[i]? = some (fmt, sinks) →
        ∀ (j : Nat) path r f, sinks[j]? = some (.file path (File.Sink.init r f)) →
        (∀ c ∈ cs, ∀ k s, sinks[k]? = some s → ¬ Fails (c.replies i k) (start s)) →
        ∀ texts, Both (Says p fmt) cs texts →
        ∃ h' s, hs'[i]? = some h' ∧ h'.sinks[j]? = some (.file path s)
          ∧ File.contents s.streams = texts.flatMap fun t => (t.map (· ++ ['\n'])).getD [] := by
  refine ⟨_, Essentials.C64_build p.env cd doc name hname hvs ds hd h, ?_⟩
  intro cs hs' hrun i fmt sinks hi j path r f hj hok texts hsays
  refine C65_every_line p _ hs' cs hrun i ⟨fmt, sinks.map start⟩ ?_ j path r f ?_ ?_ texts hsays
  · simp [hi, Handler.start]
  · simp [hj, start]
  · intro c hc k s hk
    simp only [List.getElem?_map] at hk
    cases hks : sinks[k]? with
    | none => rw [hks] at hk; cases hk
    | some s0 =>
      rw [hks] at hk
      cases hk
      exact hok c hc k s0 hks

/-- **C65, patterns.** For a string formatter described by a pattern (and possibly names of severities), the text of a
record is what the pattern prints for it (C19, C20, C22-C24, C44). -/
theorem C65_pattern (p : Process) (cd : Str → Option Nat) (ms : List (Str × Json)) (pattern : Str)
    (names : Option (List Str)) (ht : Essentials.Typed (.obj ms) (ch! "string"))
    (hc : StringFmt.Configured ms pattern names) (f : StringFmt.Formatter)
    (hf : StringFmt.Formatter.make cd pattern (StringFmt.configuredSeverity p.env names) = .ok f) :
    Essentials.DescribesFormatter p.env cd (.obj ms) (.string f)
    ∧ ∀ c r text, Renders p c (.string f) r text ↔ ∃ seen, SeenAs p r seen ∧
        StringFmt.Prints cd (StringFmt.configuredSeverity p.env names) { p.env with lwp := c.lwp } p.clock pattern
          seen (.ok text) := by
  refine ⟨.string ht fun cursor => (StringFmt.C53_config p.env cd cursor ms pattern names hc f).2 hf, ?_⟩
  intro c r text
  constructor
  · rintro ⟨seen, hs, h⟩
    exact ⟨seen, hs, f, hf, h⟩
  · rintro ⟨seen, hs, g, hg, h⟩
    rw [hf] at hg
    cases hg
    exact ⟨seen, hs, h⟩

/-! ### A concrete case -/

namespace Example

def process : Process :=
  { env := { fd := fun _ _ => .ok [], pid := 1, lwp := 1, procname := ch! "app", threadName := fun _ => none },
    clock := fun _ _ _ _ => .ok (ch! "now"), dtoa := fun _ => [], eval := fun _ => .ok [] }

def fine : Reply := { file := ⟨some 1, some 1, some 1⟩, what := [], tty := false, other := .ok }

/-- A logger in an intact scope; the filter wants a severity of at least 1. -/
def call (severity : Int) (pattern : Str) (args : List FmtArgs.Passed) : Call :=
  { world := Scope.World.init.construct 0, thread := 5, lwp := 6, logger := 0, now := 1000,
    filter := fun _ r => some (decide (1 ≤ r.severity)), lg := .root, severity := severity,
    pattern := ⟨pattern, ch! "\x00"⟩, args := Facade.arguments args none, replies := fun _ _ => fine }

def formatter : Essentials.Formatter := .tskv Tskv.Data.init

def handlers : List Handler := [⟨formatter, [.null, .file (ch! "/log") (File.Sink.init .stat (.repeat 1))]⟩]

def calls : List Call := [call 2 (ch! "n={}") [.val (.arg (.int 3))], call 0 (ch! "no") [], call 1 (ch! "yes") []]

def texts : List (Option Str) :=
  [some (ch! "tskv\ttimestamp=now\tseverity=2\tpid=1\ttid=0x5\tmessage=n=3"), none,
   some (ch! "tskv\ttimestamp=now\tseverity=1\tpid=1\ttid=0x5\tmessage=yes")]

theorem says : Both (Says process formatter) calls texts := by
  refine .cons ⟨_, .mk (values := [.val (.arg (.int 3))]) (trailing := none) (scopes := []) (text := ch! "n=3") rfl rfl
      (.inr ⟨by simp, rfl⟩) rfl, renders_iff.2 rfl⟩ (.cons ?_ (.cons ⟨_, .mk (values := []) (trailing := none) (scopes := [])
      rfl rfl (.inl ⟨rfl, rfl⟩) rfl, renders_iff.2 rfl⟩ .nil))
  intro r h
  cases h with
  | mk a b c d => cases d

/-- The hypotheses of `C65_every_line` and what it says: two of the three calls are in the file. -/
example : ∃ hs' h' s, run process handlers calls = .ok hs' ∧ hs'[0]? = some h'
    ∧ h'.sinks[1]? = some (.file (ch! "/log") s)
    ∧ File.contents s.streams = ch! "tskv\ttimestamp=now\tseverity=2\tpid=1\ttid=0x5\tmessage=n=3\n\
        tskv\ttimestamp=now\tseverity=1\tpid=1\ttid=0x5\tmessage=yes\n" := by
  have hrun : ∃ hs', run process handlers calls = .ok hs' := ⟨_, rfl⟩
  obtain ⟨hs', hrun⟩ := hrun
  obtain ⟨h', s, h1, h2, h3⟩ := C65_every_line process handlers hs' calls hrun 0 _ rfl 1 (ch! "/log") .stat (.repeat 1) rfl
    (by
      intro c hc k t ht
      have hrep : c.replies 0 k = fine := by
        simp only [calls, List.mem_cons, List.not_mem_nil, or_false] at hc
        rcases hc with rfl | rfl | rfl <;> rfl
      rw [hrep]
      match k, ht with
      | 0, ht => cases ht; simp [Fails]
      | 1, ht => cases ht; simp [Fails, fine]
      | k + 2, ht => cases ht) texts says
  exact ⟨hs', h', s, hrun, h1, h2, h3⟩

/-- A pattern of a configuration. -/
example : StringFmt.Configured [(ch! "type", .str (ch! "string")), (ch! "pattern", .str (ch! "{severity:d}: {message}"))]
      (ch! "{severity:d}: {message}") none
    ∧ StringFmt.Prints (fun _ => none) (StringFmt.configuredSeverity process.env none) { process.env with lwp := 6 }
      process.clock (ch! "{severity:d}: {message}") (recordOf process ⟨[], ch! "n=3", 2, 1000, 5, []⟩) (.ok (ch! "2: n=3")) :=
  ⟨⟨rfl, rfl, by decide, by simp⟩, ⟨_, rfl, rfl⟩⟩

end Example

end Blackhole.Pipeline
