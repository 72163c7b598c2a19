import Verif.Peer.Model
import Verif.Socket.Props

/-! # Properties of where the socket sinks send to: C104 -/

namespace Blackhole.Peer

open Socket

variable {A : Type}

/-! ## Specification -/

/-- The address to which a new connection goes: the first of the host's that accepts one. -/
def Reachable (w : Moment A) (a : A) : Prop :=
  ∃ before after, w.resolve = .ok (before ++ a :: after) ∧ w.connect a = none ∧ ∀ b ∈ before, w.connect b ≠ none

/-! ## The model is that of C40 -/

/-- The network of a moment as `Verif.Socket.Model` has it, for a sink that writes to this address. -/
def Moment.net (w : Moment A) (peer : A) : Net where
  resolve _ := w.resolve.map List.length
  connect _ i := match w.resolve with
    | .ok as => match as[i]? with
      | some a => w.connect a
      | none => some 0
    | .error _ => some 0
  write _ m := w.write peer m

theorem doConnect_iff (w : Moment A) (as : List A) (last : Option Code) (a : A) : doConnect w last as = .ok a ↔
    ∃ before after, as = before ++ a :: after ∧ w.connect a = none ∧ ∀ b ∈ before, w.connect b ≠ none := by
  induction as generalizing last with
  | nil => simp [doConnect]
  | cons x as ih =>
    unfold doConnect
    cases hx : w.connect x with
    | none =>
      simp only [Except.ok.injEq]
      constructor
      · rintro rfl
        exact ⟨[], as, rfl, hx, by simp⟩
      · rintro ⟨before, after, e, h1, h2⟩
        cases before with
        | nil => simp only [List.nil_append, List.cons.injEq] at e; exact e.1
        | cons b before =>
          simp only [List.cons_append, List.cons.injEq] at e
          exact absurd (e.1 ▸ hx) (h2 b (by simp))
    | some c =>
      simp only
      rw [ih]
      constructor
      · rintro ⟨before, after, rfl, h1, h2⟩
        refine ⟨x :: before, after, rfl, h1, ?_⟩
        intro b hb
        rcases List.mem_cons.1 hb with rfl | hb
        · rw [hx]; simp
        · exact h2 b hb
      · rintro ⟨before, after, e, h1, h2⟩
        cases before with
        | nil =>
          simp only [List.nil_append, List.cons.injEq] at e
          rw [← e.1, hx] at h1; cases h1
        | cons b before =>
          simp only [List.cons_append, List.cons.injEq] at e
          exact ⟨before, after, e.2, h1, fun b' hb' => h2 b' (List.mem_cons_of_mem _ hb')⟩

theorem doConnect_same (w : Moment A) (peer : A) (all : List A) (hr : w.resolve = .ok all) (as : List A) :
    ∀ (i : Nat) (tr : List Ev) (last : Option Code), all.drop i = as →
      (Socket.doConnect (w.net peer) tr i last as.length).1 = (doConnect w last as).map fun _ => () := by
  induction as with
  | nil => intro i tr last _; rfl
  | cons a as ih =>
    intro i tr last h
    have ha : all[i]? = some a := by
      have := congrArg List.head? h
      rwa [List.head?_drop, List.head?_cons] at this
    have hc : ∀ tr, (w.net peer).connect tr i = w.connect a := by
      intro tr
      simp only [Moment.net, hr, ha]
    simp only [List.length_cons, Socket.doConnect, doConnect, hc]
    cases w.connect a with
    | none => rfl
    | some e => exact ih (i + 1) _ _ (by rw [← List.drop_drop, h]; rfl)

theorem reconnect_same (w : Moment A) (peer : A) (tr : List Ev) :
    (Socket.reconnect (w.net peer) tr).1 = (reconnect w).map fun _ => () := by
  unfold Socket.reconnect reconnect
  cases hr : w.resolve with
  | error c => simp [Moment.net, hr, Except.map]
  | ok as =>
    have h := doConnect_same w peer as hr as 0 (tr ++ [.resolve true]) none rfl
    have hn : (w.net peer).resolve tr = .ok as.length := by simp [Moment.net, hr, Except.map]
    rw [hn]
    simp only
    generalize Socket.doConnect (w.net peer) (tr ++ [.resolve true]) 0 none as.length = q at h
    obtain ⟨r, t⟩ := q
    simp only at h
    subst h
    cases doConnect w none as <;> rfl

/-- An emit ends as in the model with numbered endpoints, and the sink is connected afterwards exactly if it is there. -/
theorem C104_same_emit (w : Moment A) (peer : Option A) (s : Tcp) (tr : List Ev) (m : Str) (to : A)
    (hs : s.socket.isSome = peer.isSome) (hto : ∀ a, peer = some a ∨ peer = none ∧ reconnect w = .ok a → to = a) :
    (s.emit (w.net to) tr m).1 = (tcpEmit w peer m).1 ∧
      (s.emit (w.net to) tr m).2.1.socket.isSome = (tcpEmit w peer m).2.1.isSome := by
  have hw : ∀ (s' : Tcp) (c : Nat) (tr' : List Ev) (a : A), s'.socket = some c → to = a →
      (s'.write (w.net to) c tr' m).1 = (tcpWrite w a m).1 ∧
      (s'.write (w.net to) c tr' m).2.1.socket.isSome = (tcpWrite w a m).2.1.isSome := by
    intro s' c tr' a h1 h2
    subst h2
    unfold Tcp.write tcpWrite
    simp only [Moment.net]
    cases w.write to m with
    | none => simp [h1]
    | some p => obtain ⟨k, e⟩ := p; simp
  unfold Tcp.emit tcpEmit
  cases peer with
  | some a =>
    cases hss : s.socket with
    | none => rw [hss] at hs; cases hs
    | some c => exact hw s c tr a hss (hto a (.inl rfl))
  | none =>
    cases hss : s.socket with
    | some c => rw [hss] at hs; cases hs
    | none =>
      simp only
      have h := reconnect_same w to tr
      generalize Socket.reconnect (w.net to) tr = q at h
      obtain ⟨r, t⟩ := q
      simp only at h
      subst h
      cases hr : reconnect w with
      | error e => simp [Except.map, hss]
      | ok a =>
        simp only [Except.map]
        exact hw _ _ _ a rfl (hto a (.inr ⟨rfl, hr⟩))

/-! ## C104: the TCP sink -/

/-- A connection is made to the first address the host has at that moment that accepts one, -/
theorem C104_connects (w : Moment A) (a : A) : reconnect w = .ok a ↔ Reachable w a := by
  unfold reconnect Reachable
  cases hr : w.resolve with
  | error c => simp
  | ok as =>
    simp only [Except.ok.injEq]
    rw [← doConnect_iff w as none a]
    cases doConnect w none as <;> simp

/-- and to no address exactly if the host cannot be resolved or none of its addresses accepts one: the emit throws then. -/
theorem C104_unreachable (w : Moment A) (m : Str) :
    (∀ a, ¬ Reachable w a) ↔ ∃ e, tcpEmit w none m = (.error e, none, []) ∧ reconnect w = .error e := by
  constructor
  · intro h
    cases hr : reconnect w with
    | ok a => exact absurd ((C104_connects w a).1 hr) (h a)
    | error e => exact ⟨e, by simp [tcpEmit, hr], rfl⟩
  · rintro ⟨e, -, hr⟩ a ha
    rw [(C104_connects w a).2 ha] at hr
    cases hr

/-- **The host moves.** Whatever happened before: if an emit throws, or if it is the first one, the next message goes to the first
of the addresses the host has by then that accepts a connection; and a host none of whose addresses is that of the connection
before is found all the same. -/
theorem C104_follows (history : List (Moment A × Str)) (w : Moment A) (a : A) (m : Str) (ha : Reachable w a)
    (hw : w.write a m = none)
    (hlast : history = [] ∨ ∃ r, (tcpRun none history).1.getLast? = some r ∧ r.1 ≠ .ok ()) :
    tcpEmit w (tcpRun none history).2 m = (.ok (), some a, [(a, m)]) := by
  have hnone : ∀ (history : List (Moment A × Str)) (peer : Option A) (r : Except Error Unit × List (A × Str)),
      (tcpRun peer history).1.getLast? = some r → r.1 ≠ .ok () → (tcpRun peer history).2 = none := by
    intro history
    induction history with
    | nil => intro peer r h; simp [tcpRun] at h
    | cons p rest ih =>
      obtain ⟨w', m'⟩ := p
      intro peer r h hne
      simp only [tcpRun] at h ⊢
      cases rest with
      | cons q rest =>
        refine ih _ r ?_ hne
        obtain ⟨w2, m2⟩ := q
        simp only [tcpRun, List.getLast?_cons_cons] at h ⊢
        exact h
      | nil =>
        simp only [tcpRun, List.getLast?_singleton, Option.some.injEq] at h ⊢
        subst h
        simp only at hne
        have hwr : ∀ a, (tcpWrite w' a m').1 ≠ .ok () → (tcpWrite w' a m').2.1 = none := by
          intro a
          unfold tcpWrite
          split
          · intro h; exact absurd rfl h
          · intro _; rfl
        unfold tcpEmit at hne ⊢
        cases peer with
        | some a => exact hwr a hne
        | none =>
          simp only at hne ⊢
          cases hr : reconnect w' with
          | error e => rfl
          | ok a => rw [hr] at hne; exact hwr a hne
  have hp : (tcpRun none history).2 = none := by
    rcases hlast with rfl | ⟨r, h1, h2⟩
    · rfl
    · exact hnone history none r h1 h2
  rw [hp]
  simp [tcpEmit, (C104_connects w a).2 ha, tcpWrite, hw]

/-- As long as writing works the messages stay on the connection, wherever the host has moved. -/
theorem C104_stays (w : Moment A) (a : A) (m : Str) (hw : w.write a m = none) :
    tcpEmit w (some a) m = (.ok (), some a, [(a, m)]) := by
  simp [tcpEmit, tcpWrite, hw]

/-- Every message that is sent goes to an address that the host had when the connection was made: at this emit or an earlier
one of the history. -/
theorem C104_had_address (history : List (Moment A × Str)) (r : Except Error Unit × List (A × Str)) (a : A) (t : Str)
    (hr : r ∈ (tcpRun none history).1) (ht : (a, t) ∈ r.2) : ∃ p ∈ history, Reachable p.1 a := by
  have key : ∀ (history : List (Moment A × Str)) (peer : Option A) (r : Except Error Unit × List (A × Str)),
      r ∈ (tcpRun peer history).1 → (a, t) ∈ r.2 → peer = some a ∨ ∃ p ∈ history, Reachable p.1 a := by
    intro history
    induction history with
    | nil => intro peer r h; simp [tcpRun] at h
    | cons p rest ih =>
      obtain ⟨w, m⟩ := p
      intro peer r h ht
      have hws : ∀ b, ((a, t) ∈ (tcpWrite w b m).2.2 → b = a) ∧ ((tcpWrite w b m).2.1 = some a → b = a) := by
        intro b
        unfold tcpWrite
        split <;> simp <;> intros <;> simp_all
      have hemit : ((a, t) ∈ (tcpEmit w peer m).2.2 → peer = some a ∨ Reachable w a) ∧
          ((tcpEmit w peer m).2.1 = some a → peer = some a ∨ Reachable w a) := by
        unfold tcpEmit
        cases peer with
        | some b =>
          exact ⟨fun h => .inl (congrArg some ((hws b).1 h)), fun h => .inl (congrArg some ((hws b).2 h))⟩
        | none =>
          simp only
          cases hrc : reconnect w with
          | error e => simp
          | ok b =>
            have hb := (C104_connects w b).1 hrc
            exact ⟨fun h => .inr ((hws b).1 h ▸ hb), fun h => .inr ((hws b).2 h ▸ hb)⟩
      simp only [tcpRun, List.mem_cons] at h
      rcases h with rfl | h
      · rcases hemit.1 ht with h | h
        · exact .inl h
        · exact .inr ⟨(w, m), by simp, h⟩
      · rcases ih _ r h ht with h | ⟨p, hp, h⟩
        · rcases hemit.2 h with h | h
          · exact .inl h
          · exact .inr ⟨(w, m), by simp, h⟩
        · exact .inr ⟨p, List.mem_cons_of_mem _ hp, h⟩
  rcases key history none r hr ht with h | h
  · cases h
  · exact h

/-! ## C104: the UDP sink -/

/-- A UDP sink is made exactly if the host has an address and a socket can be opened for the first one. -/
theorem C104_udp_made (w : Moment A) (a : A) : udpMake w = .sink a ↔ ∃ as, w.resolve = .ok (a :: as) ∧ w.open a = none := by
  unfold udpMake
  cases w.resolve with
  | error c => simp
  | ok as =>
    cases as with
    | nil => simp
    | cons b bs =>
      simp only
      cases ho : w.open b with
      | none =>
        simp only [Made.sink.injEq, Except.ok.injEq, List.cons.injEq]
        constructor
        · rintro rfl; exact ⟨bs, ⟨rfl, rfl⟩, ho⟩
        · rintro ⟨_, ⟨rfl, _⟩, _⟩; rfl
      | some c =>
        simp only [reduceCtorEq, Except.ok.injEq, List.cons.injEq, false_iff]
        rintro ⟨_, ⟨rfl, _⟩, h⟩
        rw [ho] at h; cases h

/-- All its datagrams go to that address for ever; each is the whole message of an emit that returned, and an emit that throws
sends none. -/
theorem C104_udp_fixed (a : A) (history : List (Moment A × Str)) (i : Nat) (w : Moment A) (m : Str)
    (hi : history[i]? = some (w, m)) :
    (udpRun a history)[i]? = some (none, [(a, m)]) ∨ ∃ c, (udpRun a history)[i]? = some (some c, []) := by
  simp only [udpRun, List.getElem?_map, hi, Option.map_some, udpEmit]
  cases w.send a m with
  | none => exact .inl rfl
  | some c => exact .inr ⟨c, rfl⟩

/-- **It does not follow its host**: when the host has moved to another address, at which all is well, all its emits throw if the
old address takes nothing, however many there are. (For TCP it is one, `C104_follows`.) -/
theorem C104_fails_udp (a b : A) (hab : a ≠ b) : ∃ w w' : Moment A, udpMake w = .sink a ∧ udpMake w' = .sink b ∧
    (∀ m, w'.send b m = none) ∧ ∀ ms : List Str, ∀ r ∈ udpRun a (ms.map fun m => (w', m)), r.1 ≠ none ∧ r.2 = [] := by
  classical
  refine ⟨⟨.ok [a], fun _ => none, fun _ _ => none, fun _ => none, fun _ _ => none⟩,
    ⟨.ok [b], fun _ => none, fun _ _ => none, fun _ => none, fun x _ => if x = b then none else some 111⟩, rfl, rfl,
    fun m => by simp, ?_⟩
  intro ms r hr
  simp only [udpRun, List.map_map, List.mem_map, Function.comp_def] at hr
  obtain ⟨m, _, rfl⟩ := hr
  simp [udpEmit, hab]

/-- It does not try the other addresses: if no socket can be opened for the first one the sink cannot be made, although one could
for the second. -/
theorem C104_fails_udp_first (a b : A) (hab : a ≠ b) : ∃ w w' : Moment A, udpMake w' = .sink b ∧ w'.open = w.open ∧
    w.resolve = .ok [a, b] ∧ ∃ c, udpMake w = .open c := by
  classical
  refine ⟨⟨.ok [a, b], fun _ => none, fun _ _ => none, fun x => if x = b then none else some 97, fun _ _ => none⟩,
    ⟨.ok [b], fun _ => none, fun _ _ => none, fun x => if x = b then none else some 97, fun _ _ => none⟩, ?_, rfl, rfl, 97, ?_⟩
  · simp [udpMake]
  · simp [udpMake, hab]

/-! ## The hypotheses can be met -/

/-- The host is at address 1, and that does not take a second message; then it is at 2, whose first address 7 is down. -/
example :
    let w : Moment Nat := ⟨.ok [1], fun _ => none, fun _ m => if m = ch! "two" then some (1, 32) else none, fun _ => none, fun _ _ => none⟩
    let w' : Moment Nat := ⟨.ok [7, 2], fun a => if a = 7 then some 111 else none, fun _ _ => none, fun _ => none, fun _ _ => none⟩
    (tcpRun none [(w, ch! "one"), (w, ch! "two"), (w', ch! "three")]).1
      = [(.ok (), [(1, ch! "one")]), (.error (.write 32), [(1, ch! "t")]), (.ok (), [(2, ch! "three")])] := by
  rfl

example : Reachable (⟨.ok [7, 2], fun a => if a = 7 then some 111 else none, fun _ _ => none, fun _ => none,
    fun _ _ => none⟩ : Moment Nat) 2 := ⟨[7], [], rfl, rfl, by simp⟩

end Blackhole.Peer
