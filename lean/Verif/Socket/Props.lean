import Verif.Socket.Model
import Verif.Config.Props

/-! # Properties of the socket sinks: C40, C48 -/

namespace Blackhole.Socket

open Config (Json Node HasAt lookup)

/-! ## Specification -/

/-- What the peer of connection `c` has received. -/
def received (c : Nat) : List Ev → Str
  | [] => []
  | .sent c' b :: tr => (if c' = c then b else []) ++ received c tr
  | _ :: tr => received c tr

/-- One emit as seen from outside: the connection it wrote to, if any, and how much of the message was sent. -/
structure Delivery where
  conn : Option Nat
  message : Str
  result : Except Error Unit

/-- What a connection received: whole messages, then perhaps the beginning of one whose emit threw. -/
def Delivered (c : Nat) (ds : List Delivery) (bytes : Str) : Prop :=
  ∃ whole part, bytes = whole.flatMap Delivery.message ++ part
    ∧ (∀ d ∈ whole, d.result = .ok ())
    ∧ ((ds.filter (·.conn = some c) = whole ∧ part = [])
      ∨ ∃ d e, ds.filter (·.conn = some c) = whole ++ [d] ∧ d.result = .error (.write e) ∧ part <+: d.message)

/-! ## Lemmas -/

theorem received_append (c : Nat) (a b : List Ev) : received c (a ++ b) = received c a ++ received c b := by
  induction a with
  | nil => rfl
  | cons e a ih =>
    cases e <;> simp [received, ih]

theorem doConnect_trace (net : Net) (n : Nat) : ∀ (tr : List Ev) (i : Nat) (last : Option Code), ∃ l : List Ev,
    (doConnect net tr i last n).2 = tr ++ l ∧ (∀ e ∈ l, ∃ j ok, e = .attempt j ok)
    ∧ ((doConnect net tr i last n).1 = .ok () ↔ ∃ k, k < n ∧ l = (List.range' i k).map (fun j => Ev.attempt j false)
        ++ [.attempt (i + k) true]) := by
  induction n with
  | zero =>
    intro tr i last
    refine ⟨[], by simp [doConnect], by simp, ?_⟩
    constructor
    · intro h; simp [doConnect] at h
    · rintro ⟨k, hk, _⟩; omega
  | succ n ih =>
    intro tr i last
    unfold doConnect
    cases net.connect tr i with
    | none =>
      refine ⟨[.attempt i true], rfl, by simp, ?_⟩
      constructor
      · intro _; exact ⟨0, by omega, by simp⟩
      · intro _; rfl
    | some e =>
      obtain ⟨l, h1, h2, h3⟩ := ih (tr ++ [.attempt i false]) (i + 1) (some e)
      refine ⟨.attempt i false :: l, by simp only [h1]; simp, ?_, ?_⟩
      · intro x hx
        rcases List.mem_cons.1 hx with rfl | hx
        · exact ⟨_, _, rfl⟩
        · exact h2 x hx
      · simp only
        rw [h3]
        constructor
        · rintro ⟨k, hk, rfl⟩
          refine ⟨k + 1, by omega, ?_⟩
          rw [List.range'_succ]
          simp
          omega
        · rintro ⟨k, hk, hl⟩
          cases k with
          | zero => simp at hl
          | succ k =>
            rw [List.range'_succ] at hl
            simp only [List.map_cons, List.cons_append, List.cons.injEq, true_and] at hl
            exact ⟨k, by omega, by rw [hl, show i + 1 + k = i + (k + 1) by omega]⟩

/-- The events of a reconnection say nothing about bytes sent. -/
theorem reconnect_trace (net : Net) (tr : List Ev) : ∃ l : List Ev, (reconnect net tr).2 = tr ++ l
    ∧ (∃ ok l', l = .resolve ok :: l') ∧ ∀ c, received c l = [] := by
  unfold reconnect
  cases net.resolve tr with
  | error c => exact ⟨[.resolve false], rfl, ⟨_, _, rfl⟩, fun _ => rfl⟩
  | ok n =>
    simp only
    obtain ⟨l, h1, h2, _⟩ := doConnect_trace net n (tr ++ [.resolve true]) 0 none
    have hr : ∀ c, received c l = [] := by
      intro c
      have : ∀ l : List Ev, (∀ e ∈ l, ∃ j ok, e = Ev.attempt j ok) → received c l = [] := by
        intro l
        induction l with
        | nil => intro _; rfl
        | cons e l ih =>
          intro h
          obtain ⟨j, ok, rfl⟩ := h e (by simp)
          simp only [received]
          exact ih fun e he => h e (by simp [he])
      exact this l h2
    refine ⟨.resolve true :: l, ?_, ⟨_, _, rfl⟩, fun c => hr c⟩
    cases hd : doConnect net (tr ++ [.resolve true]) 0 none n with
    | mk r t =>
      rw [hd] at h1
      simp only at h1
      cases r <;> simp [h1]

/-- The deliveries of a history (ghost): which connection each emit wrote to. -/
def deliveries (net : Net) : Tcp → List Ev → List Str → List Delivery
  | _, _, [] => []
  | s, tr, m :: ms =>
    let r := s.emit net tr m
    { conn := match s.socket, (reconnect net tr).1 with
        | some c, _ => some c
        | none, .ok _ => some s.opened
        | none, .error _ => none
      message := m, result := r.1 } :: deliveries net r.2.1 r.2.2 ms

/-! ## C40 -/

/-- An emit that returns has sent the whole message, once, on one connection and nothing else; afterwards the sink
holds this connection. -/
theorem C40_success (net : Net) (s s' : Tcp) (tr tr' : List Ev) (m : Str) (h : s.emit net tr m = (.ok (), s', tr')) :
    ∃ c l, s'.socket = some c ∧ tr' = tr ++ l ++ [.sent c m] ∧ (∀ c', received c' l = [])
      ∧ (s.socket = some c ∧ l = [] ∨ s.socket = none ∧ ∃ l', l = .resolve true :: l') := by
  unfold Tcp.emit at h
  have hw : ∀ (s0 : Tcp) c tr0, s0.socket = some c → s0.write net c tr0 m = (.ok (), s', tr') →
      s'.socket = some c ∧ tr' = tr0 ++ [.sent c m] := by
    intro s0 c tr0 hs0 h
    unfold Tcp.write at h
    split at h
    · simp only [Prod.mk.injEq, true_and] at h
      rw [← h.1, ← h.2]
      exact ⟨hs0, rfl⟩
    · simp at h
  split at h
  · rename_i c hs
    obtain ⟨h1, h2⟩ := hw s c tr hs h
    exact ⟨c, [], h1, by simpa using h2, fun _ => rfl, Or.inl ⟨hs, rfl⟩⟩
  · rename_i hs
    obtain ⟨l, hl, ⟨ok, l', hl'⟩, hr⟩ := reconnect_trace net tr
    split at h
    · simp at h
    · rename_i u tr1 hrc
      rw [hrc] at hl
      simp only at hl
      obtain ⟨h1, h2⟩ := hw _ s.opened tr1 rfl h
      refine ⟨s.opened, l, h1, by rw [h2, hl], hr, Or.inr ⟨hs, ?_⟩⟩
      have hok : ok = true := by
        unfold reconnect at hrc
        split at hrc
        · simp at hrc
        · obtain ⟨l2, h3, _, _⟩ := doConnect_trace net ‹_› (tr ++ [.resolve true]) 0 none
          split at hrc
          · simp at hrc
          · rename_i x tr2 hd
            rw [hd] at h3
            simp only [Prod.mk.injEq] at hrc
            rw [← hrc.2] at hl
            simp only at h3
            rw [h3, hl'] at hl
            have : Ev.resolve true :: l2 = Ev.resolve ok :: l' := by
              have hl : tr ++ (Ev.resolve true :: l2) = tr ++ (Ev.resolve ok :: l') := by simpa using hl
              exact List.append_cancel_left hl
            injection this with this _
            injection this with this
            exact this.symm
      exact ⟨l', by rw [hl', hok]⟩

/-- An emit that throws leaves the sink without a socket. -/
theorem C40_failure (net : Net) (s s' : Tcp) (tr tr' : List Ev) (m : Str) (e : Error)
    (h : s.emit net tr m = (.error e, s', tr')) : s'.socket = none := by
  unfold Tcp.emit at h
  have hw : ∀ (s0 : Tcp) c tr0, s0.write net c tr0 m = (.error e, s', tr') → s'.socket = none := by
    intro s0 c tr0 h
    unfold Tcp.write at h
    split at h
    · simp at h
    · simp only [Prod.mk.injEq] at h
      rw [← h.2.1]
  split at h
  · exact hw _ _ _ h
  · rename_i hs
    split at h
    · simp only [Prod.mk.injEq] at h
      rw [← h.2.1]; exact hs
    · exact hw _ _ _ h

/-- A sink without a socket resolves and connects again at the next emit, before anything is sent. -/
theorem C40_reconnects (net : Net) (s : Tcp) (tr : List Ev) (m : Str) (hs : s.socket = none) :
    ∃ ok l, (s.emit net tr m).2.2 = tr ++ .resolve ok :: l := by
  obtain ⟨l, hl, ⟨ok, l', hl'⟩, _⟩ := reconnect_trace net tr
  unfold Tcp.emit
  rw [hs]
  simp only
  cases hrc : reconnect net tr with
  | mk r tr1 =>
    rw [hrc] at hl
    simp only at hl
    cases r with
    | error e => exact ⟨ok, l', by simp [hl, hl']⟩
    | ok u =>
      simp only
      unfold Tcp.write
      split
      · exact ⟨ok, l' ++ [.sent s.opened m], by simp [hl, hl']⟩
      · rename_i k e _
        exact ⟨ok, l' ++ [.sent s.opened (m.take k), .closed s.opened], by simp [hl, hl']⟩

/-- The endpoints are tried in order until one accepts the connection. -/
theorem C40_endpoints (net : Net) (tr : List Ev) (n : Nat) (hn : net.resolve tr = .ok n) :
    (reconnect net tr).1 = .ok () ↔
      ∃ k, k < n ∧ (reconnect net tr).2
        = tr ++ [.resolve true] ++ (List.range k).map (fun j => Ev.attempt j false) ++ [.attempt k true] := by
  obtain ⟨l, h1, h2, h3⟩ := doConnect_trace net n (tr ++ [.resolve true]) 0 none
  unfold reconnect
  rw [hn]
  simp only
  cases hd : doConnect net (tr ++ [.resolve true]) 0 none n with
  | mk r t =>
    rw [hd] at h1 h3
    simp only at h1 h3
    cases r with
    | ok u =>
      simp only [true_iff]
      obtain ⟨k, hk, hl⟩ := h3.1 rfl
      refine ⟨k, hk, ?_⟩
      rw [h1, hl, List.range_eq_range']
      simp
    | error c =>
      simp only [reduceCtorEq, false_iff]
      rintro ⟨k, hk, ht⟩
      have : (Except.error c : Except Code Unit) = .ok () := by
        rw [h3]
        refine ⟨k, hk, ?_⟩
        rw [h1] at ht
        have : (tr ++ [Ev.resolve true]) ++ l = (tr ++ [Ev.resolve true]) ++
            ((List.range k).map (fun j => Ev.attempt j false) ++ [.attempt k true]) := by simpa using ht
        have := List.append_cancel_left this
        rw [this, List.range_eq_range']
        simp
      cases this

/-- Generalised over the state: connections that the sink no longer holds receive nothing more. -/
theorem delivered_from (net : Net) (ms : List Str) : ∀ (s : Tcp) (tr : List Ev) (c : Nat),
    (∀ c', s.socket = some c' → c' < s.opened) →
    ∃ bytes, received c (s.run net tr ms).2.2 = received c tr ++ bytes
      ∧ (c < s.opened → s.socket ≠ some c → bytes = [] ∧ (deliveries net s tr ms).filter (·.conn = some c) = [])
      ∧ Delivered c (deliveries net s tr ms) bytes := by
  induction ms with
  | nil =>
    intro s tr c _
    exact ⟨[], by simp [Tcp.run], fun _ _ => ⟨rfl, rfl⟩, [], [], rfl, by simp, Or.inl ⟨rfl, rfl⟩⟩
  | cons m ms ih =>
    intro s tr c hinv
    have hrun : (s.run net tr (m :: ms)).2.2 = (Tcp.run net (s.emit net tr m).2.1 (s.emit net tr m).2.2 ms).2.2 := by
      simp [Tcp.run]
    rw [hrun]
    simp only [deliveries]
    -- the common part: a write on connection `c0` held by state `s0`
    have hwrite : ∀ (s0 : Tcp) (c0 : Nat) (tr0 : List Ev), s0.socket = some c0 → c0 < s0.opened →
        (∀ x, x = s0.write net c0 tr0 m →
        ∃ bytes, received c (Tcp.run net x.2.1 x.2.2 ms).2.2 = received c tr0 ++ bytes
          ∧ (c < s0.opened → s0.socket ≠ some c → bytes = []
              ∧ (deliveries net x.2.1 x.2.2 ms).filter (·.conn = some c) = [])
          ∧ Delivered c (⟨some c0, m, x.1⟩ :: deliveries net x.2.1 x.2.2 ms) bytes) := by
      intro s0 c0 tr0 hs0 hc0 x hx
      unfold Tcp.write at hx
      split at hx
      · subst hx
        simp only
        obtain ⟨bytes, h1, h2, h3⟩ := ih s0 (tr0 ++ [.sent c0 m]) c (fun c' hc' => by
          rw [hs0] at hc'; injection hc' with hc'; omega)
        refine ⟨(if c0 = c then m else []) ++ bytes, ?_, ?_, ?_⟩
        · rw [h1, received_append]; simp [received]
        · intro hc hne
          have : c0 ≠ c := fun e => hne (by rw [hs0, e])
          obtain ⟨hb, hd⟩ := h2 hc hne
          simp [this, hb, hd]
        · obtain ⟨whole, part, hb, hw, hd⟩ := h3
          by_cases hcc : c0 = c
          · refine ⟨⟨some c0, m, .ok ()⟩ :: whole, part, by simp [hb, hcc], ?_, ?_⟩
            · intro d hd
              rcases List.mem_cons.1 hd with rfl | hd
              · rfl
              · exact hw d hd
            · rcases hd with ⟨hd, hp⟩ | ⟨d, e, hd, hde⟩
              · exact Or.inl ⟨by subst hcc; simp [← hd], hp⟩
              · exact Or.inr ⟨d, e, by subst hcc; simp [hd], hde⟩
          · refine ⟨whole, part, by simp [hb, hcc], hw, ?_⟩
            simpa [hcc] using hd
      · rename_i k e _
        subst hx
        simp only
        obtain ⟨bytes, h1, h2, h3⟩ := ih { s0 with socket := none } (tr0 ++ [.sent c0 (m.take k), .closed c0]) c
          (fun c' hc' => by cases hc')
        refine ⟨(if c0 = c then m.take k else []) ++ bytes, ?_, ?_, ?_⟩
        · rw [h1, received_append]; simp [received]
        · intro hc hne
          have : c0 ≠ c := fun e => hne (by rw [hs0, e])
          obtain ⟨hb, hd⟩ := h2 hc (by simp)
          simp [this, hb, hd]
        · by_cases hcc : c0 = c
          · subst hcc
            obtain ⟨hb, hd⟩ := h2 hc0 (by simp)
            subst hb
            refine ⟨[], m.take k, by simp, by simp, Or.inr ⟨⟨some c0, m, .error (.write e)⟩, e, ?_, rfl, List.take_prefix k m⟩⟩
            simp [hd]
          · obtain ⟨whole, part, hb, hw, hd⟩ := h3
            refine ⟨whole, part, by simp [hb, hcc], hw, ?_⟩
            simpa [hcc] using hd
    cases hs : s.socket with
    | some c0 =>
      have hemit : s.emit net tr m = s.write net c0 tr m := by unfold Tcp.emit; rw [hs]
      rw [hemit]
      obtain ⟨bytes, h1, h2, h3⟩ := hwrite s c0 tr hs (hinv c0 hs) _ rfl
      refine ⟨bytes, h1, ?_, h3⟩
      intro hc hne
      obtain ⟨hb, hd⟩ := h2 hc (by rw [hs]; exact hne)
      refine ⟨hb, ?_⟩
      have : c0 ≠ c := fun e => hne (by rw [e])
      simp [this, hd]
    | none =>
      obtain ⟨l, hl, _, hr⟩ := reconnect_trace net tr
      cases hrc : reconnect net tr with
      | mk r tr1 =>
        rw [hrc] at hl
        simp only at hl
        cases r with
        | error e =>
          have hemit : s.emit net tr m = (.error e, s, tr1) := by unfold Tcp.emit; rw [hs, hrc]
          rw [hemit]
          simp only
          obtain ⟨bytes, h1, h2, h3⟩ := ih s tr1 c hinv
          refine ⟨bytes, ?_, ?_, ?_⟩
          · rw [h1, hl, received_append, hr]; simp
          · intro hc hne
            obtain ⟨hb, hd⟩ := h2 hc (by rw [hs]; exact hne)
            exact ⟨hb, by simp [hd]⟩
          · obtain ⟨whole, part, hb, hw, hd⟩ := h3
            exact ⟨whole, part, hb, hw, by simpa using hd⟩
        | ok u =>
          have hemit : s.emit net tr m
              = Tcp.write net { socket := some s.opened, opened := s.opened + 1 } s.opened tr1 m := by
            unfold Tcp.emit; rw [hs, hrc]
          rw [hemit]
          simp only
          obtain ⟨bytes, h1, h2, h3⟩ := hwrite { socket := some s.opened, opened := s.opened + 1 } s.opened tr1 rfl
            (by simp) _ rfl
          refine ⟨bytes, ?_, ?_, h3⟩
          · rw [h1, hl, received_append, hr]; simp
          · intro hc _
            have hne : s.opened ≠ c := by omega
            obtain ⟨hb, hd⟩ := h2 (by simp; omega) (by simp [hne])
            exact ⟨hb, by simp [hne, hd]⟩

/-- For every behaviour of the network and every history: what a connection received is the whole messages of the
emits that wrote to it and returned, in order, followed by at most the beginning of one last message whose emit threw.
Nothing of any other emit reached it. -/
theorem C40_connections (net : Net) (ms : List Str) (c : Nat) :
    Delivered c (deliveries net Tcp.init [] ms) (received c (Tcp.init.run net [] ms).2.2) := by
  obtain ⟨bytes, h1, _, h3⟩ := delivered_from net ms Tcp.init [] c (by simp [Tcp.init])
  rw [h1]
  simpa [received] using h3

/-- The deliveries are the emits of the history: same messages, same results, in order. -/
theorem C40_deliveries (net : Net) (s : Tcp) (tr : List Ev) (ms : List Str) :
    (deliveries net s tr ms).map Delivery.message = ms
    ∧ (deliveries net s tr ms).map Delivery.result = (s.run net tr ms).1
    ∧ ∀ d ∈ deliveries net s tr ms, d.result = .ok () → d.conn ≠ none := by
  induction ms generalizing s tr with
  | nil => exact ⟨rfl, rfl, by simp [deliveries]⟩
  | cons m ms ih =>
    obtain ⟨h1, h2, h3⟩ := ih (s.emit net tr m).2.1 (s.emit net tr m).2.2
    refine ⟨by simp [deliveries, h1], by simp [deliveries, Tcp.run, h2], ?_⟩
    intro d hd hr
    simp only [deliveries, List.mem_cons] at hd
    rcases hd with rfl | hd
    · simp only at hr ⊢
      cases hs : s.socket with
      | some c => simp
      | none =>
        cases hrc : reconnect net tr with
        | mk r tr1 =>
          cases r with
          | ok u => simp
          | error e =>
            exfalso
            unfold Tcp.emit at hr
            rw [hs, hrc] at hr
            cases hr
    · exact h3 d hd hr

/-- The connection breaks in the middle of the second message; the third goes over a new one. -/
example :
    let net : Net := { resolve := fun _ => .ok 2, connect := fun _ i => if i = 0 then some 111 else none,
                       write := fun _ m => if m = ch! "two" then some (1, 32) else none }
    let r := Tcp.init.run net [] [ch! "one", ch! "two", ch! "three"]
    received 0 r.2.2 = ch! "onet" ∧ received 1 r.2.2 = ch! "three"
      ∧ r.1 = [.ok (), .error (.write 32), .ok ()] := ⟨rfl, rfl, rfl⟩

/-! ## C48: configuration -/

/-- Host and port are used as given, if the port is below 65536. -/
theorem C48_used_partial (doc : Json) (host : Str) (port : Nat) (hnul : '\x00' ∉ host) (hport : port < 65536)
    (hh : HasAt doc [.key (ch! "host")] (.str host)) (hp : HasAt doc [.key (ch! "port")] (.int port)) :
    fromConfig (Node.root doc) = .ok (host, port) := by
  have p1 : Config.Plain [.key (ch! "host")] := by intro k hk; simp at hk; subst hk; decide
  have p2 : Config.Plain [.key (ch! "port")] := by intro k hk; simp at hk; subst hk; decide
  have e1 : (Node.root doc).key (ch! "host") = some ⟨_, _⟩ := Config.some_of p1 hh
  have hr : (0 ≤ (port : Int) ∧ (port : Int) < 2 ^ 64) := by omega
  have u1 : ((Node.root doc).key (ch! "host")).toString = .ok (some host) := by
    rw [e1]
    simp only [Config.Opt.toString, Config.Opt.to, Node.toString, Except.map, Config.cstr_plain hnul]
  have u2 : (lookup doc [.key (ch! "port")]).toUint64 = .ok (some (port : Int)) := by
    have := (Config.C33_conversions_partial doc _ p2 _ hp).2.2.1
    simp only [hr, and_self, if_true] at this
    exact this
  have u2 : ((Node.root doc).key (ch! "port")).toUint64 = .ok (some (port : Int)) := u2
  unfold fromConfig
  rw [u1, u2]
  simp only
  have : ((port : Int) % 2 ^ 16).toNat = port := by omega
  rw [this]

/-- A missing host or port is rejected. -/
theorem C48_required (doc : Json) :
    ((∀ v, ¬ HasAt doc [.key (ch! "host")] v) → fromConfig (Node.root doc) = .error .hostRequired)
    ∧ (∀ host, HasAt doc [.key (ch! "host")] (.str host) → (∀ v, ¬ HasAt doc [.key (ch! "port")] v) →
        fromConfig (Node.root doc) = .error .portRequired) := by
  have p1 : Config.Plain [.key (ch! "host")] := by intro k hk; simp at hk; subst hk; decide
  have p2 : Config.Plain [.key (ch! "port")] := by intro k hk; simp at hk; subst hk; decide
  constructor
  · intro h
    have e1 : (Node.root doc).key (ch! "host") = none := Config.none_of_not p1 h
    unfold fromConfig
    rw [e1]
    rfl
  · intro host hh h
    have e1 : (Node.root doc).key (ch! "host") = some ⟨_, _⟩ := Config.some_of p1 hh
    have e2 : (Node.root doc).key (ch! "port") = none := Config.none_of_not p2 h
    unfold fromConfig
    rw [e1, e2]
    rfl

/-- A larger port is not rejected: another port is used. -/
theorem C48_fails_large_port (doc : Json) (host : Str) (port : Nat) (hnul : '\x00' ∉ host)
    (h1 : 65536 ≤ port) (h2 : port < 2 ^ 64)
    (hh : HasAt doc [.key (ch! "host")] (.str host)) (hp : HasAt doc [.key (ch! "port")] (.int port)) :
    ∃ other, other ≠ port ∧ other < 65536 ∧ fromConfig (Node.root doc) = .ok (host, other) := by
  have p1 : Config.Plain [.key (ch! "host")] := by intro k hk; simp at hk; subst hk; decide
  have p2 : Config.Plain [.key (ch! "port")] := by intro k hk; simp at hk; subst hk; decide
  have e1 : (Node.root doc).key (ch! "host") = some ⟨_, _⟩ := Config.some_of p1 hh
  have hr : (0 ≤ (port : Int) ∧ (port : Int) < 2 ^ 64) := by omega
  refine ⟨port % 65536, by omega, by omega, ?_⟩
  have u1 : ((Node.root doc).key (ch! "host")).toString = .ok (some host) := by
    rw [e1]
    simp only [Config.Opt.toString, Config.Opt.to, Node.toString, Except.map, Config.cstr_plain hnul]
  have u2 : (lookup doc [.key (ch! "port")]).toUint64 = .ok (some (port : Int)) := by
    have := (Config.C33_conversions_partial doc _ p2 _ hp).2.2.1
    simp only [hr, and_self, if_true] at this
    exact this
  have u2 : ((Node.root doc).key (ch! "port")).toUint64 = .ok (some (port : Int)) := u2
  unfold fromConfig
  rw [u1, u2]
  simp only
  have : ((port : Int) % 2 ^ 16).toNat = port % 65536 := by omega
  rw [this]

/-- Exactly which configurations are accepted, and which host and port are used: those with a text as host and an integer
of 64 bits as port; the text up to its first NUL and the port modulo 65536. -/
theorem C48_exact (doc : Json) (h : Str) (p : Nat) : fromConfig (Node.root doc) = .ok (h, p) ↔
    ∃ host port, HasAt doc [.key (ch! "host")] (.str host) ∧ HasAt doc [.key (ch! "port")] (.int port)
      ∧ 0 ≤ port ∧ port < 2 ^ 64 ∧ h = host.takeWhile (· ≠ '\x00') ∧ (p : Int) = port % 65536 := by
  have p1 : Config.Plain [.key (ch! "host")] := by intro k hk; simp at hk; subst hk; decide
  have p2 : Config.Plain [.key (ch! "port")] := by intro k hk; simp at hk; subst hk; decide
  constructor
  · intro e
    unfold fromConfig at e
    have hh : ∃ host, HasAt doc [.key (ch! "host")] (.str host) ∧
        ((Node.root doc).key (ch! "host")).toString = .ok (some (host.takeWhile (· ≠ '\x00'))) := by
      cases e1 : (Node.root doc).key (ch! "host") with
      | none => rw [e1] at e; cases e
      | some n =>
        have hv := ((Config.C33_navigation_partial doc _ p1 n).1 e1).1
        cases ev : n.value with
        | str host =>
          rw [ev] at hv
          exact ⟨host, hv, by simp only [Config.Opt.toString, Config.Opt.to, Node.toString, ev, Except.map, Config.cstr]⟩
        | _ =>
          rw [e1] at e
          simp only [Config.Opt.toString, Config.Opt.to, Node.toString, ev, Except.map] at e
          cases e
    obtain ⟨host, hh, e1⟩ := hh
    rw [e1] at e
    simp only at e
    have hp : ∃ port, HasAt doc [.key (ch! "port")] (.int port) ∧ 0 ≤ port ∧ port < 2 ^ 64 ∧
        ((Node.root doc).key (ch! "port")).toUint64 = .ok (some port) := by
      cases e2 : (Node.root doc).key (ch! "port") with
      | none => rw [e2] at e; cases e
      | some n =>
        have hv := ((Config.C33_navigation_partial doc _ p2 n).1 e2).1
        rw [e2] at e
        simp only [Config.Opt.toUint64, Config.Opt.to, Node.toUint64] at e
        cases ev : n.value with
        | int z =>
          rw [ev] at hv
          simp only [ev, Json.isUint64] at e
          by_cases hz : 0 ≤ z ∧ z < 2 ^ 64
          · exact ⟨z, hv, hz.1, hz.2, by
              simp only [Config.Opt.toUint64, Config.Opt.to, Node.toUint64, ev, Json.isUint64, hz, and_self, decide_true,
                if_true, Except.map]⟩
          · simp only [hz, decide_false, Bool.false_eq_true, if_false, Except.map] at e
            cases e
        | _ =>
          simp only [ev, Except.map] at e
          cases e
    obtain ⟨port, hp, h1, h2, e2⟩ := hp
    rw [e2] at e
    simp only [Except.ok.injEq, Prod.mk.injEq] at e
    exact ⟨host, port, hh, hp, h1, h2, e.1.symm, by omega⟩
  · rintro ⟨host, port, hh, hp, h1, h2, rfl, e⟩
    have e1 : (Node.root doc).key (ch! "host") = some ⟨_, _⟩ := Config.some_of p1 hh
    have u2 : ((Node.root doc).key (ch! "port")).toUint64 = .ok (some port) := by
      have := (Config.C33_conversions_partial doc _ p2 _ hp).2.2.1
      simp only [h1, h2, and_self, if_true] at this
      exact this
    unfold fromConfig
    rw [e1, u2]
    simp only [Config.Opt.toString, Config.Opt.to, Node.toString, Except.map, Config.cstr]
    have : (port % 2 ^ 16).toNat = p := by omega
    rw [this]

example : fromConfig (Node.root (.obj [(ch! "host", .str (ch! "localhost")), (ch! "port", .int 65616)]))
    = .ok (ch! "localhost", 80) := rfl

end Blackhole.Socket
