import Verif.Wire.Lemmas
import Verif.Socket.ThreadsProps
import Verif.Tskv.Props
import Verif.StringFmt.Props

/-! # C95: a reader can tell the records on a connection or in a file apart -/

namespace Blackhole.Wire

open Rec StringFmt Json
open Socket (Net Tcp Delivery Delivered deliveries received)

/-! ## The reader on a beginning of a stream of records -/

theorem carries {env : Env} {clock : Clock} {dtoa : Nat → Str} {d : Data} {r : Record} {m : Str}
    (h : Formats env clock dtoa d r m) (j : Nat) :
    ∃ t, tree env clock d r = .ok t ∧ Carries dtoa t (m ++ List.replicate j '\n') := by
  unfold Formats Json.format at h
  cases ht : tree env clock d r with
  | error e => rw [ht] at h; cases h
  | ok t =>
    rw [ht] at h
    cases h
    refine ⟨t, rfl, tree_obj ht, ?_⟩
    cases d.newline with
    | false => exact ⟨j, by simp⟩
    | true => exact ⟨j + 1, by simp [List.replicate_succ]⟩

theorem read_prefix {α : Type} {env : Env} {clock : Clock} {dtoa : Nat → Str} {d : Data} (hd : Numbers dtoa)
    (record : α → Record) (text line : α → Str) (j : Nat) (hl : ∀ x, line x = text x ++ List.replicate j '\n')
    (xs : List α) (hx : ∀ x ∈ xs, Formats env clock dtoa d (record x) (text x)) (bytes : Str)
    (hb : bytes <+: (xs.map line).flatten) :
    ∃ k, k ≤ xs.length
      ∧ Both (fun x v => Reads env clock dtoa d (record x) v) (xs.take k) (readAll bytes).1
      ∧ (∀ j, j ≤ xs.length → ((xs.take j).map line).flatten <+: bytes → j ≤ k)
      ∧ ((readAll bytes).2 = [] ∨ ∃ x, xs[k]? = some x ∧ (readAll bytes).2 <+: line x) := by
  have hts : ∀ ys : List α, (∀ y ∈ ys, y ∈ xs) → ∃ ts, Both (fun x t => tree env clock d (record x) = .ok t) ys ts
      ∧ Both (Carries dtoa) ts (ys.map line) := by
    intro ys
    induction ys with
    | nil => intro _; exact ⟨[], .nil, .nil⟩
    | cons y ys ih =>
      intro hy
      obtain ⟨ts, h1, h2⟩ := ih fun z hz => hy z (List.mem_cons_of_mem _ hz)
      obtain ⟨t, h3, h4⟩ := carries (hx y (hy y List.mem_cons_self)) j
      rw [← hl y] at h4
      exact ⟨t :: ts, .cons h3 h1, .cons h4 h2⟩
  obtain ⟨ts, h1, h2⟩ := hts xs fun _ h => h
  obtain ⟨k, k1, k2, k3, k4⟩ := readStream_prefix hd h2 (bytes.length + 1) bytes (by omega) hb
  rw [← h1.length] at k1
  refine ⟨k, k1, ?_, ?_, ?_⟩
  · unfold readAll
    rw [k2]
    clear k2 k3 k4 h2 hts hb hx k1
    induction h1 generalizing k with
    | nil => simp only [List.take_nil, List.map_nil]; exact .nil
    | cons h _ ih =>
      cases k with
      | zero => exact .nil
      | succ k => exact .cons ⟨_, h, rfl⟩ (ih k)
  · intro i hi hp
    rw [List.map_take] at hp
    exact k3 i (by rw [← h1.length]; exact hi) hp
  · rcases k4 with h | ⟨m, h5, h6⟩
    · exact .inl h
    · rw [List.getElem?_map] at h5
      cases hk : xs[k]? with
      | none => rw [hk] at h5; cases h5
      | some x =>
        rw [hk] at h5
        cases h5
        exact .inr ⟨x, rfl, h6⟩

/-! ## Connections -/

theorem zip_filter {α : Type} (c : Nat) : ∀ (rs : List α) (ds : List Delivery), rs.length = ds.length →
    ((rs.zip ds).filter (fun x => x.2.conn = some c)).map Prod.snd = ds.filter (·.conn = some c) := by
  intro rs
  induction rs with
  | nil => intro ds h; cases ds with
    | nil => rfl
    | cons _ _ => simp at h
  | cons r rs ih =>
    intro ds h
    cases ds with
    | nil => simp at h
    | cons d ds =>
      have := ih ds (by simpa using h)
      by_cases hc : d.conn = some c <;> simp [hc, this]

theorem zip_formats {R : Record → Str → Prop} : ∀ {rs : List Record} {ds : List Delivery},
    Both R rs (ds.map Delivery.message) → ∀ x ∈ rs.zip ds, R x.1 x.2.message := by
  intro rs
  induction rs with
  | nil => intro ds _ x hx; simp at hx
  | cons r rs ih =>
    intro ds h x hx
    cases ds with
    | nil => simp at hx
    | cons d ds =>
      cases h with
      | cons h1 h2 =>
        rcases List.mem_cons.1 hx with rfl | hx
        · exact h1
        · exact ih h2 x hx

theorem read_delivered {env : Env} {clock : Clock} {dtoa : Nat → Str} {d : Data} (hd : Numbers dtoa) {rs : List Record}
    {ds : List Delivery} (hf : Both (Formats env clock dtoa d) rs (ds.map Delivery.message)) {c : Nat} {bytes : Str}
    (h : Delivered c ds bytes) :
    ∃ whole last, (rs.zip ds).filter (fun x => x.2.conn = some c) = whole ++ last
      ∧ (∀ x ∈ whole, x.2.result = .ok ()) ∧ (last = [] ∨ ∃ x e, last = [x] ∧ x.2.result = .error (.write e))
      ∧ (Both (fun x v => Reads env clock dtoa d x.1 v) whole (readAll bytes).1
          ∧ ((readAll bytes).2 = [] ∨ ∃ x ∈ last, (readAll bytes).2 <+: x.2.message)
        ∨ Both (fun x v => Reads env clock dtoa d x.1 v) (whole ++ last) (readAll bytes).1 ∧ (readAll bytes).2 = []) := by
  obtain ⟨whole, part, hb, hok, hcase⟩ := h
  have hlen : rs.length = ds.length := by simpa using hf.length
  generalize hp : (rs.zip ds).filter (fun x => x.2.conn = some c) = pairs
  have hsnd : pairs.map Prod.snd = ds.filter (·.conn = some c) := by rw [← hp]; exact zip_filter c rs ds hlen
  have hform : ∀ x ∈ pairs, Formats env clock dtoa d x.1 x.2.message := by
    intro x hx
    rw [← hp] at hx
    exact zip_formats hf x (List.mem_filter.1 hx).1
  have hle : whole = (pairs.take whole.length).map Prod.snd := by
    rw [List.map_take, hsnd]
    rcases hcase with ⟨e, _⟩ | ⟨d, err, e, _, _⟩
    · rw [e]; simp
    · rw [e]; simp
  have hpre : bytes <+: (pairs.map fun x => x.2.message).flatten := by
    have e1 : (pairs.map fun x => x.2.message).flatten = (pairs.map Prod.snd).flatMap Delivery.message := by
      simp [List.flatMap, Function.comp_def]
    rw [e1, hsnd, hb]
    rcases hcase with ⟨e, rfl⟩ | ⟨d, err, e, _, hpart⟩
    · rw [e]; simp
    · rw [e, List.flatMap_append]
      rw [List.prefix_append_right_inj]
      simpa using hpart
  obtain ⟨k, k1, k2, k3, k4⟩ := read_prefix hd (fun x : Record × Delivery => x.1) (fun x => x.2.message)
    (fun x => x.2.message) 0 (by simp) pairs hform bytes hpre
  have hwlen : whole.length ≤ pairs.length := by
    have := congrArg List.length hle
    rw [List.length_map, List.length_take] at this
    omega
  have hk : whole.length ≤ k := by
    refine k3 _ hwlen ?_
    have e1 : ((pairs.take whole.length).map fun x => x.2.message).flatten
        = ((pairs.take whole.length).map Prod.snd).flatMap Delivery.message := by
      simp [List.flatMap, Function.comp_def]
    rw [e1, ← hle, hb]
    exact List.prefix_append _ _
  refine ⟨pairs.take whole.length, pairs.drop whole.length, (List.take_append_drop _ _).symm, ?_, ?_, ?_⟩
  · intro x hx
    have : x.2 ∈ whole := by rw [hle]; exact List.mem_map.2 ⟨x, hx, rfl⟩
    exact hok _ this
  · have hdrop : (pairs.drop whole.length).map Prod.snd = (ds.filter (·.conn = some c)).drop whole.length := by
      rw [List.map_drop, hsnd]
    rcases hcase with ⟨e, _⟩ | ⟨d, err, e, he, _⟩
    · rw [e] at hdrop
      simp at hdrop
      exact .inl (by simpa using hdrop)
    · rw [e, List.drop_left] at hdrop
      cases hq : pairs.drop whole.length with
      | nil => exact .inl rfl
      | cons x l =>
        rw [hq] at hdrop
        simp at hdrop
        exact .inr ⟨x, err, by rw [hdrop.2], by rw [hdrop.1]; exact he⟩
  · by_cases hkw : k = whole.length
    · left
      subst hkw
      refine ⟨k2, ?_⟩
      rcases k4 with h | ⟨x, h1, h2⟩
      · exact .inl h
      · refine .inr ⟨x, ?_, h2⟩
        exact List.mem_of_getElem? (by rw [List.getElem?_drop, Nat.add_zero]; exact h1)
    · right
      have hpl : pairs.length ≤ whole.length + 1 := by
        have := congrArg List.length hsnd
        rw [List.length_map] at this
        rcases hcase with ⟨e, _⟩ | ⟨d, err, e, _, _⟩
        · rw [e] at this; omega
        · rw [e, List.length_append, List.length_singleton] at this; omega
      have hkk : k = pairs.length := by omega
      rw [List.take_append_drop]
      rw [hkk, List.take_length] at k2
      refine ⟨k2, ?_⟩
      rcases k4 with h | ⟨x, h1, _⟩
      · exact h
      · rw [hkk] at h1; simp at h1

/-- **C95 (TCP).** JSON records are sent over TCP. Whatever the network does, and with or without newlines: reading what a
connection received gives, in order, exactly the values of the records whose emit wrote to this connection and returned.
An emit that threw while writing is the last one on its connection; either its record is read too, or the beginning of it
that arrived is recognised as not whole. -/
theorem C95_tcp (env : Env) (clock : Clock) (dtoa : Nat → Str) (hd : Numbers dtoa) (d : Data) (net : Net)
    (rs : List Record) (texts : List Str) (hf : Both (Formats env clock dtoa d) rs texts) (c : Nat) :
    let got := readAll (received c (Tcp.init.run net [] texts).2.2)
    ∃ whole last, (rs.zip (deliveries net Tcp.init [] texts)).filter (fun x => x.2.conn = some c) = whole ++ last
      ∧ (∀ x ∈ whole, x.2.result = .ok ()) ∧ (last = [] ∨ ∃ x e, last = [x] ∧ x.2.result = .error (.write e))
      ∧ (Both (fun x v => Reads env clock dtoa d x.1 v) whole got.1 ∧ (got.2 = [] ∨ ∃ x ∈ last, got.2 <+: x.2.message)
        ∨ Both (fun x v => Reads env clock dtoa d x.1 v) (whole ++ last) got.1 ∧ got.2 = []) := by
  refine read_delivered hd ?_ (Socket.C40_connections net texts c)
  rw [(Socket.C40_deliveries net Tcp.init [] texts).1]
  exact hf

/-- **C95 (TCP, several threads).** The same while several threads share the sink: the records are those of the emits in
the order in which they were made. -/
theorem C95_threads (env : Env) (clock : Clock) (dtoa : Nat → Str) (hd : Numbers dtoa) (d : Data) (net : Net) (n : Nat)
    (programs : Nat → List Str) (hn : ∀ t, n ≤ t → programs t = []) (schedule : List Nat)
    (s : Lock.State Unit Unit Str Socket.Link) (hs : s = Socket.tcpRun net programs schedule) (rs : List Record)
    (hf : Both (Formats env clock dtoa d) rs (s.emitted.map (·.2.1))) (hfin : s.finished) (c : Nat) :
    let got := readAll ((s.res ()).wire c)
    let ds := deliveries net Tcp.init [] (s.emitted.map (·.2.1))
    ∃ whole last, (rs.zip ds).filter (fun x => x.2.conn = some c) = whole ++ last
      ∧ (∀ x ∈ whole, x.2.result = .ok ()) ∧ (last = [] ∨ ∃ x e, last = [x] ∧ x.2.result = .error (.write e))
      ∧ (Both (fun x v => Reads env clock dtoa d x.1 v) whole got.1 ∧ (got.2 = [] ∨ ∃ x ∈ last, got.2 <+: x.2.message)
        ∨ Both (fun x v => Reads env clock dtoa d x.1 v) (whole ++ last) got.1 ∧ got.2 = []) := by
  obtain ⟨c0, current, h1, _, _, _, h5⟩ := Socket.C70_tcp net n programs hn schedule s hs
  obtain ⟨bytes, e, e2, h6⟩ := h1 c
  rw [(h5 hfin).1] at e
  have e : (s.res ()).wire c = bytes := by simpa using e
  rw [e]
  refine read_delivered hd ?_ h6
  rw [(Socket.C40_deliveries net Tcp.init [] _).1]
  exact hf

/-! ## Files -/

open File.Disk (Oracle Outcome Sink NoIoError acknowledged inFlight)
open File (RotateFactory FlusherFactory)

/-- The emits of a history that returned, and the one in which the process died. -/
def written {α : Type} (xs : List α) (h : List (Oracle × Str)) (outs : List Outcome) : List (α × (Oracle × Str) × Outcome) :=
  (xs.zip (h.zip outs)).filter fun x => x.2.2 = .ok ∨ x.2.2 = .crashed

theorem written_lines {α : Type} (h : List (Oracle × Str)) : ∀ (s : Sink) (xs : List α), xs.length = h.length →
    ∃ p, (written xs h (s.run h).2).map (fun x => x.2.1.2 ++ ['\n']) = acknowledged h (s.run h).2 ++ p
      ∧ p.flatten = inFlight h (s.run h).2
      ∧ ((written xs h (s.run h).2).filter fun x => x.2.2 = .ok).length = (acknowledged h (s.run h).2).length := by
  induction h with
  | nil =>
    intro s xs hl
    have : xs = [] := by simpa using hl
    subst this
    exact ⟨[], rfl, rfl, rfl⟩
  | cons x h ih =>
    intro s xs hl
    obtain ⟨o, m⟩ := x
    cases xs with
    | nil => simp at hl
    | cons a xs =>
      simp only [Sink.run]
      have hlx : xs.length = h.length := by simpa using hl
      cases he : s.emit o m with
      | mk s' r =>
        cases r with
        | crashed => exact ⟨[m ++ ['\n']], by simp [written, acknowledged], by simp [inFlight], by simp [written, acknowledged]⟩
        | ok =>
          obtain ⟨p, h1, h2, h3⟩ := ih s' xs hlx
          refine ⟨p, ?_, by simpa [inFlight] using h2, ?_⟩
          · simpa [written, acknowledged] using h1
          · simpa [written, acknowledged] using h3
        | openFailed =>
          obtain ⟨p, h1, h2, h3⟩ := ih s' xs hlx
          refine ⟨p, ?_, by simpa [inFlight] using h2, ?_⟩
          · simpa [written, acknowledged] using h1
          · simpa [written, acknowledged] using h3
        | statFailed =>
          obtain ⟨p, h1, h2, h3⟩ := ih s' xs hlx
          refine ⟨p, ?_, by simpa [inFlight] using h2, ?_⟩
          · simpa [written, acknowledged] using h1
          · simpa [written, acknowledged] using h3
        | ioFailed =>
          obtain ⟨p, h1, h2, h3⟩ := ih s' xs hlx
          refine ⟨p, ?_, by simpa [inFlight] using h2, ?_⟩
          · simpa [written, acknowledged] using h1
          · simpa [written, acknowledged] using h3

theorem written_formats {R : Record → Str → Prop} {rs : List Record} {h : List (Oracle × Str)} {outs : List Outcome}
    (hf : Both R rs (h.map Prod.snd)) : ∀ x ∈ written rs h outs, R x.1 x.2.1.2 := by
  intro x hx0
  have hx := (List.mem_filter.1 hx0).1
  clear hx0
  induction rs generalizing h outs with
  | nil => simp at hx
  | cons r rs ih =>
    cases h with
    | nil => simp at hx
    | cons y h =>
      cases outs with
      | nil => simp at hx
      | cons o outs =>
        cases hf with
        | cons h1 h2 =>
          rcases List.mem_cons.1 hx with rfl | hx
          · exact h1
          · exact ih h2 hx

/-- **C95 (files).** JSON records are written to a file. Whenever the process dies: reading what the files then hold gives
exactly the values of the first so many records that were written, in order, and the rest is recognised as a part of the
next one. -/
theorem C95_file (env : Env) (clock : Clock) (dtoa : Nat → Str) (hd : Numbers dtoa) (d : Data) (ro : RotateFactory)
    (f : FlusherFactory) (h : List (Oracle × Str)) (hio : NoIoError h) (rs : List Record)
    (hf : Both (Formats env clock dtoa d) rs (h.map Prod.snd)) :
    let r := (Sink.init ro f).run h
    let got := readAll r.1.onDisk
    ∃ k, k ≤ (written rs h r.2).length
      ∧ Both (fun x v => Reads env clock dtoa d x.1 v) ((written rs h r.2).take k) got.1
      ∧ (got.2 = [] ∨ ∃ x, (written rs h r.2)[k]? = some x ∧ got.2 <+: x.2.1.2 ++ ['\n']) := by
  have hl : rs.length = h.length := by simpa using hf.length
  obtain ⟨p, h1, h2, _⟩ := written_lines h (Sink.init ro f) rs hl
  have hp := File.Disk.C61_prefix ro f h hio
  rw [← h2, ← List.flatten_append, ← h1] at hp
  obtain ⟨k, k1, k2, _, k4⟩ := read_prefix hd (fun x : Record × (Oracle × Str) × Outcome => x.1) (fun x => x.2.1.2)
    (fun x => x.2.1.2 ++ ['\n']) 1 (fun _ => rfl) _ (written_formats hf) _ hp
  exact ⟨k, k1, k2, k4⟩

/-- **C95 (files, flushing by events).** With a flush every `n` events, all but at most the last `n - 1` records whose
emit returned are among those that are read. -/
theorem C95_file_events (env : Env) (clock : Clock) (dtoa : Nat → Str) (hd : Numbers dtoa) (d : Data) (ro : RotateFactory)
    (n : Nat) (hpos : 0 < n) (hn : n < 2 ^ 64) (h : List (Oracle × Str)) (hio : NoIoError h) (rs : List Record)
    (hf : Both (Formats env clock dtoa d) rs (h.map Prod.snd)) :
    let r := (Sink.init ro (.repeat n)).run h
    ∃ k, Both (fun x v => Reads env clock dtoa d x.1 v) ((written rs h r.2).take k) (readAll r.1.onDisk).1
      ∧ ((written rs h r.2).filter fun x => x.2.2 = .ok).length < k + n := by
  have hl : rs.length = h.length := by simpa using hf.length
  obtain ⟨p, h1, h2, h3⟩ := written_lines h (Sink.init ro (.repeat n)) rs hl
  have hp := File.Disk.C61_prefix ro (.repeat n) h hio
  rw [← h2, ← List.flatten_append, ← h1] at hp
  obtain ⟨k, k1, k2, k3, _⟩ := read_prefix hd (fun x : Record × (Oracle × Str) × Outcome => x.1) (fun x => x.2.1.2)
    (fun x => x.2.1.2 ++ ['\n']) 1 (fun _ => rfl) _ (written_formats hf) _ hp
  obtain ⟨lost, l1, l2, l3⟩ := File.Disk.C61_events ro n hpos hn h hio
  refine ⟨k, k2, ?_⟩
  have hlen := congrArg List.length h1
  rw [List.length_map, List.length_append] at hlen
  have := k3 ((acknowledged h ((Sink.init ro (.repeat n)).run h).2).length - lost) (by omega) (by
    rw [List.map_take, h1, List.take_append_of_le_length (by omega)]
    exact l3)
  rw [h3]
  omega

/-! ## Lines -/

theorem lines_cons (l s : Str) (hl : '\n' ∉ l) : lines (l ++ '\n' :: s) = (l :: (lines s).1, (lines s).2) := by
  induction l with
  | nil => simp [lines]
  | cons c l ih =>
    have hc : c ≠ '\n' := fun e => hl (by simp [e])
    rw [List.cons_append, lines, if_neg hc, ih fun h => hl (List.mem_cons_of_mem _ h)]

theorem lines_part (s : Str) (hs : '\n' ∉ s) : lines s = ([], s) := by
  induction s with
  | nil => rfl
  | cons c s ih =>
    have hc : c ≠ '\n' := fun e => hs (by simp [e])
    rw [lines, if_neg hc, ih fun h => hs (List.mem_cons_of_mem _ h)]

/-- Of a beginning of a text of lines, those that are complete, and the beginning of the next. -/
theorem lines_prefix (ls : List Str) (hl : ∀ l ∈ ls, '\n' ∉ l) : ∀ bytes, bytes <+: (ls.map (· ++ ['\n'])).flatten →
    ∃ k, k ≤ ls.length ∧ (lines bytes).1 = ls.take k
      ∧ (∀ j, j ≤ ls.length → ((ls.take j).map (· ++ ['\n'])).flatten <+: bytes → j ≤ k)
      ∧ ((lines bytes).2 = [] ∨ ∃ l, ls[k]? = some l ∧ (lines bytes).2 <+: l) := by
  induction ls with
  | nil =>
    intro bytes hb
    have : bytes = [] := by simpa using hb
    subst this
    exact ⟨0, by simp, rfl, by simp, .inl rfl⟩
  | cons l ls ih =>
    intro bytes hb
    have h1 := hl l List.mem_cons_self
    rw [List.map_cons, List.flatten_cons] at hb
    by_cases hw : l ++ ['\n'] <+: bytes
    · obtain ⟨b, rfl⟩ := hw
      have hb' := (List.prefix_append_right_inj _).1 hb
      obtain ⟨k, k1, k2, k3, k4⟩ := ih (fun x hx => hl x (List.mem_cons_of_mem _ hx)) b hb'
      rw [List.append_assoc, List.singleton_append, lines_cons l b h1]
      refine ⟨k + 1, by simpa using k1, by simp [k2], ?_, by simpa using k4⟩
      intro j hj hp
      cases j with
      | zero => omega
      | succ j =>
        rw [List.take_succ_cons, List.map_cons, List.flatten_cons, List.append_assoc,
          List.prefix_append_right_inj, List.singleton_append, List.cons_prefix_cons] at hp
        have := k3 j (by simpa using hj) hp.2
        omega
    · have hpre : bytes <+: l := by
        rcases List.prefix_or_prefix_of_prefix hb (List.prefix_append _ _) with h | h
        · rcases List.prefix_concat_iff.1 h with e | h
          · exact absurd (e ▸ List.prefix_rfl) hw
          · exact h
        · exact absurd h hw
      rw [lines_part bytes fun h => h1 (hpre.subset h)]
      refine ⟨0, by simp, rfl, ?_, .inr ⟨l, rfl, hpre⟩⟩
      intro j _ hp
      cases j with
      | zero => omega
      | succ j =>
        rw [List.take_succ_cons, List.map_cons, List.flatten_cons] at hp
        exact absurd ((List.prefix_append _ _).trans hp) hw

/-- **C95 (lines in a file).** Whatever made the messages, if none contains a newline: whenever the process dies, the
complete lines of the files are exactly the first so many messages that were written, in order. With a flush every `n`
events, all but at most the last `n - 1` that were acknowledged. -/
theorem C95_file_lines (ro : RotateFactory) (n : Nat) (hpos : 0 < n) (hn : n < 2 ^ 64) (h : List (Oracle × Str))
    (hio : NoIoError h) (hone : ∀ x ∈ h, '\n' ∉ x.2) :
    let r := (Sink.init ro (.repeat n)).run h
    ∃ k, (lines r.1.onDisk).1 = ((written h h r.2).take k).map (·.1.2)
      ∧ ((written h h r.2).filter fun x => x.2.2 = .ok).length < k + n := by
  obtain ⟨p, h1, h2, h3⟩ := written_lines h (Sink.init ro (.repeat n)) h rfl
  have hsame : ∀ x ∈ written h h ((Sink.init ro (.repeat n)).run h).2, x.1 = x.2.1 ∧ x.1 ∈ h := by
    intro x hx0
    have hx := (List.mem_filter.1 hx0).1
    clear hx0 h1 h2 h3 hio hone
    generalize ((Sink.init ro (.repeat n)).run h).2 = outs at hx
    induction h generalizing outs with
    | nil => simp at hx
    | cons y h ih =>
      cases outs with
      | nil => simp at hx
      | cons o outs =>
        rcases List.mem_cons.1 hx with rfl | hx
        · exact ⟨rfl, List.mem_cons_self⟩
        · obtain ⟨e1, e2⟩ := ih outs hx
          exact ⟨e1, List.mem_cons_of_mem _ e2⟩
  have hmap : ∀ l : List ((Oracle × Str) × (Oracle × Str) × Outcome),
      (∀ x ∈ l, x ∈ written h h ((Sink.init ro (.repeat n)).run h).2) →
      l.map (fun x => x.2.1.2 ++ ['\n']) = (l.map (·.1.2)).map (· ++ ['\n']) := by
    intro l hl
    rw [List.map_map]
    apply List.map_congr_left
    intro x hx
    rw [← (hsame x (hl x hx)).1]
    rfl
  have hp := File.Disk.C61_prefix ro (.repeat n) h hio
  rw [← h2, ← List.flatten_append, ← h1, hmap _ fun _ hx => hx] at hp
  obtain ⟨k, k1, k2, k3, _⟩ := lines_prefix _ (by
    intro l hl
    obtain ⟨x, hx, rfl⟩ := List.mem_map.1 hl
    exact hone _ (hsame x hx).2) _ hp
  obtain ⟨lost, l1, l2, l3⟩ := File.Disk.C61_events ro n hpos hn h hio
  refine ⟨k, by rw [k2, List.map_take], ?_⟩
  have hlen := congrArg List.length h1
  rw [List.length_map, List.length_append] at hlen
  have := k3 ((acknowledged h ((Sink.init ro (.repeat n)).run h).2).length - lost) (by rw [List.length_map]; omega) (by
    rw [List.map_take, ← hmap _ fun _ hx => hx, h1, List.take_append_of_le_length (by omega)]
    exact l3)
  rw [h3]
  omega

/-- The texts of JSON records without the configured newline have none: `C95_file_lines` applies to them. -/
theorem C95_json_one_line (env : Env) (clock : Clock) (dtoa : Nat → Str) (hd : Numbers dtoa) (d : Data)
    (hn : d.newline = false) (r : Record) (m : Str) (h : Formats env clock dtoa d r m) : '\n' ∉ m := by
  obtain ⟨line, e, hl⟩ := C54_line env clock dtoa hd d r m h
  rw [hn] at e
  simp at e
  subst e
  intro hm
  exact absurd (hl _ hm) (by decide)

/-! ## Other formatters -/

/-- **C95 does not hold for TSKV over TCP**: there is nothing between two records, and one record may look like two. -/
theorem C95_fails_tskv : ∃ (env : Env) (clock : Clock) (d : Tskv.Data) (a b c : Record) (x y : Str),
    Tskv.format env clock d a = .ok x ∧ Tskv.format env clock d b = .ok y ∧ Tskv.format env clock d c = .ok (x ++ y) := by
  refine ⟨{ fd := fun _ _ => .ok [], pid := 42, lwp := 1, procname := [], threadName := fun _ => none }, fun _ _ _ _ => .ok [],
    Tskv.bare [], Tskv.sample (ch! "k") (ch! "v"), Tskv.sample (ch! "k") (ch! "w"),
    { Tskv.sample [] [] with
      pack := [[(.at (ch! "k") [], .string (.at (ch! "vtskv") ['\x00'])), (.at (ch! "tid") [], .string (.at (ch! "0x1") ['\x00'])),
        (.at (ch! "k") [], .string (.at (ch! "w") ['\x00']))]] }, ch! "tskv\ttid=0x1\tk=v", ch! "tskv\ttid=0x1\tk=w", ?_, ?_, ?_⟩
  · exact Tskv.sample_line _ _ (by decide) (ch! "k") (ch! "v") (by decide) [] (by decide)
  · exact Tskv.sample_line _ _ (by decide) (ch! "k") (ch! "w") (by decide) [] (by decide)
  · rfl

/-- A record with a message and nothing else. -/
def plain (m : Str) : Record := { message := .at m ['\x00'], severity := 0, timestamp := 0, tid := 1, pack := [] }

theorem prints_plain (cd : Str → Option Nat) (sm : SevMap) (env : Env) (clock : Clock) (m : Str) (hm : m ≠ [])
    (hpid : env.pid < 2 ^ 64) (hlwp : env.lwp < 2 ^ 64) (hproc : '\x00' ∉ env.procname)
    (hname : ∀ s, env.threadName 1 = some s → '\x00' ∉ s) : Prints cd sm env clock (ch! "{message}") (plain m) (.ok m) :=
  (C20_fields cd sm env clock (plain m) hpid hlwp (by simp [plain]) hproc hname (by simp [plain]) (by simp [plain])).1 m _ rfl hm

/-- **C95 does not hold for patterns over TCP**: two messages that are sent one after the other may be cut elsewhere. -/
theorem C95_fails_string (cd : Str → Option Nat) (sm : SevMap) (env : Env) (clock : Clock) (hpid : env.pid < 2 ^ 64)
    (hlwp : env.lwp < 2 ^ 64) (hproc : '\x00' ∉ env.procname) (hname : ∀ s, env.threadName 1 = some s → '\x00' ∉ s) :
    ∃ x y x' y', x ≠ x' ∧ x ++ y = x' ++ y'
      ∧ ∀ m ∈ [x, y, x', y'], Prints cd sm env clock (ch! "{message}") (plain m) (.ok m) := by
  refine ⟨ch! "a", ch! "bc", ch! "ab", ch! "c", by decide, rfl, ?_⟩
  intro m hm
  refine prints_plain cd sm env clock m ?_ hpid hlwp hproc hname
  rintro rfl
  revert hm
  decide

/-- **C95 does not hold for patterns in files**: a message with a newline looks like two records. -/
theorem C95_fails_file (cd : Str → Option Nat) (sm : SevMap) (env : Env) (clock : Clock) (hpid : env.pid < 2 ^ 64)
    (hlwp : env.lwp < 2 ^ 64) (hproc : '\x00' ∉ env.procname) (hname : ∀ s, env.threadName 1 = some s → '\x00' ∉ s)
    (x y : Str) (hx : x ≠ []) (hy : y ≠ []) :
    (∀ m ∈ [x, y, x ++ '\n' :: y], Prints cd sm env clock (ch! "{message}") (plain m) (.ok m))
      ∧ ∀ o : Oracle, o = { opened := .ok 5 } →
        (((Sink.init .null (.repeat 0)).run [(o, x), (o, y)]).1.destroy (.ok 0)).onDisk
        = (((Sink.init .null (.repeat 0)).run [(o, x ++ '\n' :: y)]).1.destroy (.ok 0)).onDisk := by
  refine ⟨?_, ?_⟩
  · intro m hm
    refine prints_plain cd sm env clock m ?_ hpid hlwp hproc hname
    rintro rfl
    simp at hm
    rcases hm with h | h
    · exact hx h
    · exact hy h
  · rintro o rfl
    have hio : ∀ ms : List Str, NoIoError (ms.map fun m => (({ opened := .ok 5 } : Oracle), m)) := by
      intro ms z hz k left
      obtain ⟨m, _, rfl⟩ := List.mem_map.1 hz
      exact ⟨nofun, nofun, nofun, nofun⟩
    have key : ∀ ms : List Str, ((Sink.init .null (.repeat 0)).run (ms.map fun m => (({ opened := .ok 5 } : Oracle), m))).2
        = ms.map (fun _ => .ok) → (((Sink.init .null (.repeat 0)).run
          (ms.map fun m => (({ opened := .ok 5 } : Oracle), m))).1.destroy (.ok 0)).onDisk = (ms.map (· ++ ['\n'])).flatten := by
      intro ms h
      rw [File.Disk.C61_destroyed _ _ _ (hio ms) (by rw [h]; simp), h]
      clear h
      induction ms with
      | nil => rfl
      | cons m ms ih => simp only [List.map_cons, acknowledged, List.flatten_cons, ih]
    have h1 := key [x, y] rfl
    have h2 := key [x ++ '\n' :: y] rfl
    simp only [List.map_cons, List.map_nil] at h1 h2
    rw [h1, h2]
    simp

/-! ## Examples -/

/-- The records of `C28` meet the hypotheses. -/
example (env : Env) (clock : Clock) (dtoa : Nat → Str) : ∃ m m', Both (Formats env clock dtoa (Json.plain [] [] [] false))
    [Json.sample [(ch! "k", ch! "v")], Json.sample []] [m, m'] :=
  ⟨_, _, .cons (by unfold Formats Json.format; rw [Json.sample_tree]; rfl)
    (.cons (by unfold Formats Json.format; rw [Json.sample_tree]; rfl) .nil)⟩

/-- Two objects, one with a newline, and the beginning of a third. -/
example : (readAll (ch! "{\"a\":{}}{\"b\":[1,2]}\n{\"c\":\"}")).2 = ch! "{\"c\":\"}"
    ∧ (readAll (ch! "{\"a\":{}}{\"b\":[1,2]}\n{\"c\":\"}")).1
      = [.obj [(ch! "a", .obj [])], .obj [(ch! "b", .arr [.num ['1'], .num ['2']])]] := ⟨rfl, rfl⟩

example : lines (ch! "one\n\ntw") = ([ch! "one", []], ch! "tw") := rfl

end Blackhole.Wire
