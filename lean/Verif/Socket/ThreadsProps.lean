import Verif.Socket.Threads

/-! # Properties of the TCP and UDP sinks on several threads: C70 -/

namespace Blackhole.Socket

open Lock (byThread)

/-! ## Lemmas -/

theorem take_snoc {m : Str} {i : Nat} {c : Char} (h : m[i]? = some c) : m.take (i + 1) = m.take i ++ [c] := by
  rw [List.take_add_one, h]; rfl

/-- The bytes sent after the first `i` of them were tried. -/
def sentOf (net : Net) (m : Str) (tr : List Ev) (out : Except Error Unit) (i : Nat) : Str :=
  match out with
  | .error _ => []
  | .ok _ => match net.write tr m with
    | none => m.take i
    | some (k, _) => m.take (min k i)

/-- Some bytes of a message were sent. -/
theorem send_fold (net : Net) (m : Str) (tcp : Tcp) (tr : List Ev) (out : Except Error Unit) (xs : List (Char × Nat)) :
    ∀ (i : Nat), (∃ rest, xs ++ rest = (m.zipIdx).drop i) →
      (xs.map fun x => sendStep net m x.1 x.2).foldl (fun l f => f l)
        { tcp := tcp, tr := tr, inflight := sentOf net m tr out i, out := out }
      = { tcp := tcp, tr := tr, inflight := sentOf net m tr out (i + xs.length), out := out } := by
  induction xs with
  | nil => intro i _; rfl
  | cons x xs ih =>
    rintro i ⟨rest, h⟩
    have hx : m.zipIdx[i]? = some x := by
      have := congrArg (·[0]?) h
      simpa using this.symm
    have hlt : i < m.length := by
      have := (List.getElem?_eq_some_iff.1 hx).1
      simpa using this
    have hxi : x.2 = i ∧ m[i]? = some x.1 := by
      rw [List.getElem?_zipIdx] at hx
      rw [List.getElem?_eq_getElem hlt] at hx ⊢
      simp at hx
      rw [← hx]
      simp
    have hdrop : ∃ rest, xs ++ rest = (m.zipIdx).drop (i + 1) := by
      refine ⟨rest, ?_⟩
      have := congrArg (List.drop 1) h
      simpa [Nat.add_comm] using this
    have hs : sendStep net m x.1 x.2 { tcp := tcp, tr := tr, inflight := sentOf net m tr out i, out := out }
        = { tcp := tcp, tr := tr, inflight := sentOf net m tr out (i + 1), out := out } := by
      unfold sendStep sentOf
      cases out with
      | error e => rfl
      | ok u =>
        simp only
        cases hw : net.write tr m with
        | none => simp only [take_snoc hxi.2]
        | some ke =>
          simp only [hxi.1]
          split
          · rename_i hik
            rw [show min ke.1 i = i by omega, show min ke.1 (i + 1) = i + 1 by omega, take_snoc hxi.2]
          · rename_i hik
            rw [show min ke.1 i = ke.1 by omega, show min ke.1 (i + 1) = ke.1 by omega]
    rw [List.map_cons, List.foldl_cons, hs, ih _ hdrop]
    have : i + 1 + xs.length = i + (x :: xs).length := by simp; omega
    rw [this]

/-- After the first action. -/
theorem connect_link (net : Net) (l : Link) (hl : l.inflight = []) :
    ∃ tcp tr out, connectStep net l = { tcp := tcp, tr := tr, inflight := [], out := out }
      ∧ (∀ c, received c tr = received c l.tr)
      ∧ ((∃ e, out = .error e ∧ ∀ m, l.tcp.emit net l.tr m = (.error e, tcp, tr))
        ∨ ∃ c, out = .ok () ∧ tcp.socket = some c ∧ (∀ m, l.tcp.emit net l.tr m = tcp.write net c tr m)) := by
  unfold connectStep
  cases hs : l.tcp.socket with
  | some c =>
    refine ⟨l.tcp, l.tr, .ok (), by rw [← hl], fun _ => rfl, .inr ⟨c, rfl, hs, fun m => ?_⟩⟩
    unfold Tcp.emit
    rw [hs]
  | none =>
    obtain ⟨x, hx, _, hr⟩ := reconnect_trace net l.tr
    cases hrc : reconnect net l.tr with
    | mk r tr =>
      rw [hrc] at hx
      have hx : tr = l.tr ++ x := hx
      have hrec : ∀ c, received c tr = received c l.tr := fun c => by rw [hx, received_append, hr, List.append_nil]
      cases r with
      | error e =>
        refine ⟨l.tcp, tr, .error e, by simp [hl], hrec, .inl ⟨e, rfl, fun m => ?_⟩⟩
        unfold Tcp.emit
        rw [hs, hrc]
      | ok u =>
        refine ⟨{ socket := some l.tcp.opened, opened := l.tcp.opened + 1 }, tr, .ok (), by simp only [hl], hrec,
          .inr ⟨_, rfl, rfl, fun m => ?_⟩⟩
        unfold Tcp.emit
        rw [hs, hrc]

theorem zipIdx_all (m : Str) : ∃ rest, m.zipIdx ++ rest = (m.zipIdx).drop 0 := ⟨[], by simp⟩

theorem start_sent (net : Net) (m : Str) (tr : List Ev) (out : Except Error Unit) : sentOf net m tr out 0 = [] := by
  unfold sentOf
  cases out with
  | error e => rfl
  | ok u => cases net.write tr m with
    | none => rfl
    | some ke => simp

theorem sent_prefix (net : Net) (m : Str) (tr : List Ev) (out : Except Error Unit) (i : Nat) : sentOf net m tr out i <+: m := by
  unfold sentOf
  cases out with
  | error e => exact List.nil_prefix
  | ok u => cases net.write tr m with
    | none => exact List.take_prefix _ _
    | some ke => exact List.take_prefix _ _

/-- All actions of an emit, one after the other, are the emit. -/
theorem tcp_apply (net : Net) (m : Str) (l : Link) (hl : l.inflight = []) :
    (tcpOp net m).apply l = { tcp := (l.tcp.emit net l.tr m).2.1, tr := (l.tcp.emit net l.tr m).2.2, inflight := [],
                              out := (l.tcp.emit net l.tr m).1 } := by
  obtain ⟨tcp, tr, out, h1, -, h3⟩ := connect_link net l hl
  show (connectStep net :: (m.zipIdx.map fun x => sendStep net m x.1 x.2) ++ [endStep net m]).foldl (fun r f => f r) l = _
  rw [List.cons_append, List.foldl_cons, List.foldl_append, h1]
  have hf := send_fold net m tcp tr out m.zipIdx 0 (zipIdx_all m)
  rw [start_sent] at hf
  rw [hf]
  simp only [List.foldl_cons, List.foldl_nil]
  rcases h3 with ⟨e, rfl, he⟩ | ⟨c, rfl, hc, he⟩
  · rw [he]
    rfl
  · rw [he]
    unfold endStep
    simp only [hc]

/-- After some actions of an emit: a beginning of the message has reached one connection. -/
theorem tcp_part (net : Net) (m : Str) (l : Link) (hl : l.inflight = []) (past rest : List (Link → Link))
    (hsteps : (tcpOp net m).steps = past ++ rest) :
    ∃ c0 current, current <+: m
      ∧ ∀ c, (past.foldl (fun r f => f r) l).wire c = received c l.tr ++ if c = c0 then current else [] := by
  have hwire0 : ∀ c, l.wire c = received c l.tr := fun c => by unfold Link.wire; rw [hl]; simp
  cases past with
  | nil => exact ⟨0, [], List.nil_prefix, fun c => by simpa using hwire0 c⟩
  | cons f past =>
    have h : connectStep net :: ((m.zipIdx.map fun x => sendStep net m x.1 x.2) ++ [endStep net m]) = f :: (past ++ rest) := hsteps
    injection h with hf h
    subst hf
    rw [List.foldl_cons]
    obtain ⟨tcp, tr, out, h1, hrec, h3⟩ := connect_link net l hl
    have hsend : ∀ xs, (∃ r, xs ++ r = (m.zipIdx).drop 0) → ∃ c0 current, current <+: m
        ∧ ∀ c, ((xs.map fun x => sendStep net m x.1 x.2).foldl (fun r f => f r) (connectStep net l)).wire c
          = received c l.tr ++ if c = c0 then current else [] := by
      intro xs hx
      have hf := send_fold net m tcp tr out xs 0 hx
      rw [start_sent] at hf
      rw [h1, hf]
      rcases h3 with ⟨e, rfl, -⟩ | ⟨c0, rfl, hc, -⟩
      · exact ⟨0, [], List.nil_prefix, fun c => by simp [Link.wire, hrec, sentOf]⟩
      · exact ⟨c0, _, sent_prefix _ _ _ _ _, fun c => by simp only [Link.wire, hrec, hc, Option.some.injEq, @eq_comm _ c0 c]; rfl⟩
    rcases List.eq_nil_or_concat rest with rfl | ⟨rest', z, rfl⟩
    · -- everything was done
      rw [List.append_nil] at h
      have hall := tcp_apply net m l hl
      have : (past.foldl (fun r f => f r) (connectStep net l)) = (tcpOp net m).apply l := by
        rw [← h]; rfl
      rw [this, hall]
      rcases h3 with ⟨e, -, he⟩ | ⟨c0, -, hc, he⟩
      · refine ⟨0, [], List.nil_prefix, fun c => ?_⟩
        rw [he]
        simp [Link.wire, hrec]
      · rw [he]
        unfold Tcp.write
        cases hw : net.write tr m with
        | none =>
          refine ⟨c0, m, List.prefix_rfl, fun c => ?_⟩
          simp [Link.wire, received_append, received, hrec, eq_comm]
        | some ke =>
          refine ⟨c0, m.take ke.1, List.take_prefix _ _, fun c => ?_⟩
          simp [Link.wire, received_append, received, hrec, eq_comm]
    · have h' : (m.zipIdx.map fun x => sendStep net m x.1 x.2) = past ++ rest' := by
        have : (m.zipIdx.map fun x => sendStep net m x.1 x.2) ++ [endStep net m] = (past ++ rest') ++ [z] := by
          rw [h]; simp
        exact (List.append_inj' this rfl).1
      obtain ⟨a, b, e1, e2, -⟩ := Lock.map_split _ _ _ _ h'
      rw [e2]
      exact hsend a ⟨b, by rw [e1]; simp⟩

theorem sent_grows (net : Net) (m : Str) (tr : List Ev) (out : Except Error Unit) (i : Nat) :
    sentOf net m tr out i <+: sentOf net m tr out (i + 1) := by
  unfold sentOf
  cases out with
  | error e => exact List.nil_prefix
  | ok u => cases net.write tr m with
    | none => exact List.take_prefix_take_left (by omega)
    | some ke => exact List.take_prefix_take_left (by omega)

/-- No action of an emit takes anything back. -/
theorem tcp_grows (net : Net) (m : Str) (l : Link) (hl : l.inflight = []) (past rest : List (Link → Link)) (f : Link → Link)
    (hsteps : (tcpOp net m).steps = past ++ f :: rest) (c : Nat) :
    (past.foldl (fun r f => f r) l).wire c <+: (f (past.foldl (fun r f => f r) l)).wire c := by
  obtain ⟨tcp, tr, out, h1, hrec, h3⟩ := connect_link net l hl
  cases past with
  | nil =>
    have h : connectStep net :: ((m.zipIdx.map fun x => sendStep net m x.1 x.2) ++ [endStep net m]) = f :: rest := hsteps
    injection h with hf h
    rw [← hf]
    simp only [List.foldl_nil, h1]
    simp [Link.wire, hl, hrec]
  | cons g past =>
    have h : connectStep net :: ((m.zipIdx.map fun x => sendStep net m x.1 x.2) ++ [endStep net m])
        = g :: (past ++ f :: rest) := hsteps
    injection h with hg h
    rw [← hg, List.foldl_cons, h1]
    rcases List.eq_nil_or_concat rest with rfl | ⟨rest', z, rfl⟩
    · -- the last action
      obtain ⟨hp, hf⟩ := List.append_inj' h rfl
      injection hf with hf _
      have he := send_fold net m tcp tr out m.zipIdx 0 (zipIdx_all m)
      rw [start_sent] at he
      rw [← hp, ← hf, he]
      unfold endStep
      rcases h3 with ⟨e, rfl, -⟩ | ⟨c0, rfl, hc, -⟩
      · exact List.prefix_rfl
      · simp only [hc]
        unfold Tcp.write sentOf
        cases hw : net.write tr m with
        | none =>
          by_cases h0 : c0 = c <;> simp [Link.wire, received_append, received, hc, h0]
        | some ke =>
          by_cases h0 : c0 = c
          · simp [Link.wire, received_append, received, hc, h0]
            exact List.take_prefix_take_left (by omega)
          · simp [Link.wire, received_append, received, hc, h0]
    · have h' : (m.zipIdx.map fun x => sendStep net m x.1 x.2) = past ++ f :: rest' := by
        have : (m.zipIdx.map fun x => sendStep net m x.1 x.2) ++ [endStep net m] = (past ++ f :: rest') ++ [z] := by
          rw [h]; simp
        exact (List.append_inj' this rfl).1
      obtain ⟨a, b, e1, rfl, e3⟩ := Lock.map_split _ _ _ _ h'
      cases b with
      | nil => cases e3
      | cons x b =>
        injection e3 with e3 _
        have ha := send_fold net m tcp tr out a 0 ⟨x :: b, by rw [e1]; simp⟩
        have hb := send_fold net m tcp tr out (a ++ [x]) 0 ⟨b, by rw [e1]; simp⟩
        rw [start_sent] at ha hb
        rw [List.map_append, List.foldl_append, ha] at hb
        have hb : sendStep net m x.1 x.2 _ = _ := hb
        rw [ha, e3]
        show _ <+: (sendStep net m x.1 x.2 _).wire c
        rw [hb]
        unfold Link.wire
        simp only
        split
        · rw [List.length_append]
          exact (List.prefix_append_right_inj _).2 (by rw [← Nat.add_assoc]; exact sent_grows _ _ _ _ _)
        · exact List.prefix_rfl

theorem tcp_run_snoc (net : Net) (s : Tcp) (tr : List Ev) (ms : List Str) (m : Str) :
    Tcp.run net s tr (ms ++ [m]) = ((Tcp.run net s tr ms).1 ++ [(Tcp.emit net (Tcp.run net s tr ms).2.1 (Tcp.run net s tr ms).2.2 m).1],
      (Tcp.emit net (Tcp.run net s tr ms).2.1 (Tcp.run net s tr ms).2.2 m).2) := by
  induction ms generalizing s tr with
  | nil => simp [Tcp.run]
  | cons a ms ih => simp [Tcp.run, ih]

/-- Emits one after the other. -/
theorem tcp_serial (net : Net) (emitted : List (Nat × Str × Bool)) :
    Lock.serial (tcpOp net) Link.init emitted
      = { tcp := (Tcp.init.run net [] (emitted.map (·.2.1))).2.1, tr := (Tcp.init.run net [] (emitted.map (·.2.1))).2.2,
          inflight := [], out := ((Tcp.init.run net [] (emitted.map (·.2.1))).1.getLast?).getD (.ok ()) } := by
  induction emitted using snoc_induction with
  | nil => rfl
  | snoc l x ih =>
    rw [Lock.serial_snoc, ih, tcp_apply net x.2.1 _ rfl, List.map_append, List.map_cons, List.map_nil, tcp_run_snoc]
    simp

/-! ## C70 -/

/-- **C70, TCP.** Any number of threads emit to one TCP sink under any schedule and whatever the network does. At any
moment each connection has received what it receives if the finished emits are made one after the other, and one
connection perhaps the beginning of one more message, which is the next one of its thread. So a connection holds whole
messages of emits that returned and at its end at most a part of one more message (`Delivered` of C40): messages are
never mixed. The results are those of emits made one after the other. Each thread's messages are in its order, and when
all threads are done, all were emitted. -/
theorem C70_tcp (net : Net) (n : Nat) (programs : Nat → List Str) (hn : ∀ t, n ≤ t → programs t = [])
    (schedule : List Nat) (s : Lock.State Unit Unit Str Link) (hs : s = tcpRun net programs schedule) :
    ∃ (c0 : Nat) (current : Str),
      (∀ c, ∃ bytes, (s.res ()).wire c = bytes ++ (if c = c0 then current else [])
        ∧ bytes = received c (Tcp.init.run net [] (s.emitted.map (·.2.1))).2.2
        ∧ Delivered c (deliveries net Tcp.init [] (s.emitted.map (·.2.1))) bytes)
      ∧ s.emitted.map (·.2.2) = (Tcp.init.run net [] (s.emitted.map (·.2.1))).1.map
          (fun r => match r with | .ok _ => false | .error _ => true)
      ∧ (∀ t, (byThread t s.emitted).map (·.1) <+: programs t)
      ∧ (current = [] ∨ ∃ t m, (byThread t s.emitted).map (·.1) ++ [m] <+: programs t ∧ current <+: m)
      ∧ (s.finished → current = [] ∧ ∀ t, (byThread t s.emitted).map (·.1) = programs t) := by
  obtain ⟨h1, h2, h3, h4⟩ := Lock.one_by_one (tcpOp net) (fun _ => rfl) (fun _ => rfl) Link.init n programs hn schedule s hs
  generalize s.emitted = emitted at h1 h2 h3 h4 ⊢
  have hwire : ∀ c, (Lock.serial (tcpOp net) Link.init emitted).wire c
      = received c (Tcp.init.run net [] (emitted.map (·.2.1))).2.2 := by
    intro c; rw [tcp_serial]; simp [Link.wire]
  have hres : emitted.map (·.2.2) = (Tcp.init.run net [] (emitted.map (·.2.1))).1.map
      (fun r => match r with | .ok _ => false | .error _ => true) := by
    clear h1 h3 h4 hwire
    induction emitted using snoc_induction with
    | nil => rfl
    | snoc l x ih =>
      have ih := ih fun before y later e => h2 before y (later ++ [x]) (by simp [e])
      have hx := h2 l x [] (by simp)
      rw [tcp_serial] at hx
      rw [List.map_append, List.map_append, List.map_cons, List.map_cons, List.map_nil, List.map_nil, tcp_run_snoc,
        List.map_append, ih, hx, List.map_append, List.map_cons, List.map_nil, tcp_run_snoc]
      simp only [tcpOp, List.getLast?_append, List.getLast?_singleton, Option.some_or, Option.getD_some, List.map_cons, List.map_nil]
      cases (Tcp.emit net _ _ x.2.1).1 <;> rfl
  have hzero : ∀ c, (if c = 0 then ([] : Str) else []) = [] := fun c => by split <;> rfl
  by_cases hf : s.finished
  · refine ⟨0, [], fun c => ⟨_, ?_, rfl, C40_connections _ _ _⟩, hres, h1, .inl rfl, fun h => ⟨rfl, (h4 h).2⟩⟩
    rw [(h4 hf).1, hwire]; simp
  · rcases h3 with h3 | ⟨t, m, past, rest, h3, h5, h6⟩
    · refine ⟨0, [], fun c => ⟨_, ?_, rfl, C40_connections _ _ _⟩, hres, h1, .inl rfl, fun h => absurd h hf⟩
      rw [h3, hwire]; simp
    · obtain ⟨c0, current, hcur, hw⟩ := tcp_part net m (Lock.serial (tcpOp net) Link.init emitted) (by rw [tcp_serial]) past rest h5
      refine ⟨c0, current, fun c => ⟨_, ?_, rfl, C40_connections _ _ _⟩, hres, h1, .inr ⟨t, m, h3, hcur⟩, fun h => absurd h hf⟩
      rw [h6, hw, tcp_serial]

/-- **C70, nothing is taken back.** What a connection has received only grows. -/
theorem C70_grows (net : Net) (programs : Nat → List Str) (schedule more : List Nat) (c : Nat) :
    ((tcpRun net programs schedule).res ()).wire c <+: ((tcpRun net programs (schedule ++ more)).res ()).wire c := by
  induction more using snoc_induction with
  | nil => rw [List.append_nil]; exact List.prefix_rfl
  | snoc more t ih =>
    refine ih.trans ?_
    have hrun : tcpRun net programs (schedule ++ (more ++ [t])) = (tcpRun net programs (schedule ++ more)).step t := by
      unfold tcpRun
      rw [← List.append_assoc]
      simp [Lock.State.run]
    rw [hrun]
    have hinv := (Lock.Inv.start (fun t => (programs t).map fun m => [(tcpOp net m).alone]) (fun _ : Unit => Link.init)).run
      (schedule ++ more)
    have hs : (Lock.State.init (fun t => (programs t).map fun m => [(tcpOp net m).alone]) (fun _ : Unit => Link.init)).run
      (schedule ++ more) = tcpRun net programs (schedule ++ more) := rfl
    rw [hs] at hinv
    generalize tcpRun net programs (schedule ++ more) = s at hinv
    rcases Lock.step_res s t with h | ⟨x, ops, groups, f, fs, e1, e2, e3⟩
    · rw [h]; exact List.prefix_rfl
    · obtain ⟨op, past, hin, -⟩ := hinv.holds t _ e2
      obtain ⟨x', ops', groups', e4, e5⟩ := hin.todo
      have hocc := hinv.occurs e4
      rw [e5] at hocc
      obtain ⟨t', g, hg, y, hy, e6⟩ := hocc
      obtain ⟨m, -, rfl⟩ := List.mem_map.1 hg
      rw [List.mem_singleton] at hy
      subst hy
      have e6 : op = tcpOp net m := by
        rcases e6 with e6 | e6
        · exact e6
        · cases e6
      have hguard : Lock.Guarded (fun t => (programs t).map fun m => [(tcpOp net m).alone]) () := by
        refine ⟨(), ?_⟩
        rintro op ⟨t, g, hg, x, hx, e⟩ -
        obtain ⟨m, -, rfl⟩ := List.mem_map.1 hg
        rw [List.mem_singleton] at hx
        subst hx
        rcases e with e | e
        · rw [e]; rfl
        · cases e
      have hb := hinv.busy t op past (f :: fs) hin hguard
      have hmk : ∀ d ∈ s.done, ∃ m, d.2.1 = tcpOp net m := by
        intro d hd
        obtain ⟨t, g, hg, x, hx, e⟩ := hinv.did hd
        obtain ⟨m, -, rfl⟩ := List.mem_map.1 hg
        rw [List.mem_singleton] at hx
        subst hx
        rcases e with e | e
        · exact ⟨m, e⟩
        · cases e
      have hafter : (Lock.after () s.done Link.init).inflight = [] := by
        rw [Lock.after_serial (tcpOp net) (fun _ => rfl) _ _ hmk, tcp_serial]
      have hb : s.res () = past.foldl (fun r f => f r) (Lock.after () s.done Link.init) := hb
      rw [e3, hb]
      have hsteps := hin.steps
      rw [e6] at hsteps
      exact tcp_grows net m _ hafter past fs f hsteps c

/-- **C70, the threads get done.** Whatever was done so far, all threads can finish: no thread waits for ever for the sink. -/
theorem C70_finishes (net : Net) (n : Nat) (programs : Nat → List Str) (hn : ∀ t, n ≤ t → programs t = [])
    (schedule : List Nat) : ∃ more, (tcpRun net programs (schedule ++ more)).finished := by
  have hinv := (Lock.Inv.start (fun t => (programs t).map fun m => [(tcpOp net m).alone]) (fun _ : Unit => Link.init)).run schedule
  obtain ⟨more, h⟩ := hinv.can_finish (n := n) (fun t ht => by rw [hn t ht]; rfl)
  exact ⟨more, by unfold tcpRun; rw [show ∀ a : Lock.State Unit Unit Str Link, a.run (schedule ++ more) = (a.run schedule).run more
    from fun a => by simp [Lock.State.run]]; exact h⟩

/-- **C70, UDP.** Any number of threads emit to one UDP sink under any schedule and whatever the network does. Every emit
tries to send one datagram that is its whole message, or it throws the error of the network and sends nothing; each
thread's messages are tried in its order; when all threads are done, all were tried. -/
theorem C70_udp (send : List (Str × Option Code) → Str → Option Code) (programs : Nat → List Str) (schedule : List Nat) :
    ∀ s, s = Udp.run send programs schedule →
    s.who.length = s.tried.length
    ∧ (∀ t, (byThread t (s.who.zip s.tried)).map (·.1) ++ s.todo t = programs t)
    ∧ ∀ before m e later, s.tried = before ++ (m, e) :: later → e = send before m := by
  rintro s rfl
  unfold Udp.run
  induction schedule using snoc_induction with
  | nil => exact ⟨rfl, fun t => rfl, fun b m e l h => by simp at h⟩
  | snoc schedule t ih =>
    rw [List.foldl_append, List.foldl_cons, List.foldl_nil]
    generalize schedule.foldl (Udp.step send) { todo := programs, tried := [], who := [] } = s at ih
    obtain ⟨h1, h2, h3⟩ := ih
    unfold Udp.step
    cases htodo : s.todo t with
    | nil => exact ⟨h1, h2, h3⟩
    | cons m ms =>
      simp only [udpEmit]
      refine ⟨by simp [h1], fun u => ?_, ?_⟩
      · rw [List.zip_append h1]
        by_cases hu : u = t
        · subst hu
          have := h2 u
          rw [htodo] at this
          rw [Lock.upd_same, ← this]
          simp [byThread]
        · rw [Lock.upd_other _ _ hu, ← h2 u]
          simp [byThread, Ne.symm hu]
      · intro before m' e later h
        rcases List.eq_nil_or_concat later with rfl | ⟨later', y, rfl⟩
        · have h' : s.tried ++ [(m, send s.tried m)] = before ++ [(m', e)] := h
          obtain ⟨e1, e2⟩ := List.append_inj' h' rfl
          simp only [List.cons.injEq, Prod.mk.injEq, and_true] at e2
          rw [← e1, ← e2.1, ← e2.2]
        · have h' : s.tried ++ [(m, send s.tried m)] = (before ++ (m', e) :: later') ++ [y] := by rw [h]; simp
          exact h3 _ _ _ _ (List.append_inj' h' rfl).1

/-- Two threads emit at the same time; the connection breaks in the second message, which is the other thread's. -/
example :
    let net : Net := { resolve := fun _ => .ok 1, connect := fun _ _ => none,
                       write := fun _ m => if m = ch! "two" then some (1, 32) else none }
    let s := tcpRun net (fun t => if t = 0 then [ch! "one", ch! "six"] else if t = 1 then [ch! "two"] else [])
      ([0, 0, 1] ++ List.replicate 6 0 ++ List.replicate 7 1 ++ [0, 0, 0, 0])
    (s.res ()).wire 0 = ch! "onet" ∧ (s.res ()).wire 1 = ch! "si"
    ∧ s.emitted = [(0, ch! "one", false), (1, ch! "two", true)] := by
  refine ⟨rfl, rfl, rfl⟩

/-- One of the datagrams is too long. -/
example :
    let s := Udp.run (fun _ m => if m.length < 4 then none else some 90)
      (fun t => if t = 0 then [ch! "one", ch! "three"] else if t = 1 then [ch! "two"] else []) [0, 1, 0, 1]
    s.tried = [(ch! "one", none), (ch! "two", none), (ch! "three", some 90)] ∧ s.todo 0 = [] ∧ s.todo 1 = [] := by
  refine ⟨rfl, rfl, rfl⟩

end Blackhole.Socket
