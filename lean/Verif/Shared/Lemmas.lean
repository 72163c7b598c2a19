import Verif.Shared.Model
import Verif.Lock.Progress
import Verif.Pipeline.Props

namespace Blackhole.Shared

open Pipeline (Process Call Handler Reply Given Fails)
open Lock (Complete In)

/-! ## One emit of a file sink -/

theorem mapLast_mapLast {α : Type} (f g : α → α) (l : List α) :
    File.mapLast f (File.mapLast g l) = File.mapLast (fun x => f (g x)) l := by
  rcases List.eq_nil_or_concat l with rfl | ⟨l, x, rfl⟩
  · rfl
  · rw [List.concat_eq_append, File.mapLast_snoc, File.mapLast_snoc, File.mapLast_snoc]

/-- A sink in the middle of a write. -/
def writing (s : File.Sink) (bytes : Str) : File.Sink :=
  { s with streams := File.mapLast (fun st => { st with ops := st.ops ++ [.write bytes] }) s.streams }

theorem putChar_writing (s : File.Sink) (hb : s.backend ≠ none) (bytes : Str) (c : Char) :
    putChar c (writing s bytes) = writing s (bytes ++ [c]) := by
  unfold putChar
  cases h : s.backend with
  | none => exact absurd h hb
  | some b =>
    have : (writing s bytes).backend = some b := h
    simp only [this]
    simp only [writing, mapLast_mapLast, File.mapLast_snoc, extend, h]

theorem beginWrite_eq (s : File.Sink) (hb : s.backend ≠ none) : beginWrite s = writing s [] := by
  unfold beginWrite
  cases h : s.backend with
  | none => exact absurd h hb
  | some b => simp only [writing, h]

theorem puts_eq (s : File.Sink) (hb : s.backend ≠ none) (bytes cs : Str) :
    (cs.map fun c => onBackend (putChar c)).foldl (fun r f => f r) (.file (writing s bytes) .ok)
      = .file (writing s (bytes ++ cs)) .ok := by
  induction cs generalizing bytes with
  | nil => simp
  | cons c cs ih =>
    rw [List.map_cons, List.foldl_cons]
    have : onBackend (putChar c) (.file (writing s bytes) .ok) = .file (writing s (bytes ++ [c])) .ok := by
      simp only [onBackend, putChar_writing s hb]
    rw [this, ih]
    simp

theorem commit_eq (s : File.Sink) (hb : s.backend ≠ none) (m : Str) :
    commit (m.length + 1) (writing s (m ++ ['\n'])) = s.write m := by
  unfold commit File.Sink.write
  cases h : s.backend with
  | none => exact absurd h hb
  | some b =>
    have : (writing s (m ++ ['\n'])).backend = some b := h
    simp only [this]
    simp only [writing, mapLast_mapLast]

theorem getBackend_some (s : File.Sink) (o : File.Oracle) (h : (s.getBackend o).2 = .ok) :
    (s.getBackend o).1.backend ≠ none := by
  have hc : ∀ s : File.Sink, (s.createBackend o).2 = .ok → (s.createBackend o).1.backend ≠ none := by
    intro s h
    unfold File.Sink.createBackend at h ⊢
    cases h1 : o.opened <;> cases h2 : s.rotateFactory <;> cases h3 : o.recorded <;> simp_all
  unfold File.Sink.getBackend at h ⊢
  split
  · rename_i hb; simp only [hb] at h; exact hc s h
  · rename_i b hb
    simp only [hb] at h
    split
    · rename_i hr; rw [if_pos hr] at h; exact hc _ h
    · simp [hb]

theorem onBackend_failed (f : File.Sink → File.Sink) (s : File.Sink) (o : File.Outcome) (h : o ≠ .ok) :
    onBackend f (.file s o) = .file s o := by cases o <;> first | rfl | exact absurd rfl h

/-- The actions of an emit after it has the backend. -/
def body (text : Str) : List (Obj → Obj) :=
  onBackend beginWrite :: (text ++ ['\n']).map (fun c => onBackend (putChar c)) ++ [onBackend (commit (text.length + 1))]

theorem steps_eq (i j : Nat) (rep : Reply) (sev : Int) (text : Str) :
    (fileEmit i j rep sev text).steps = getBackend rep.file :: body text := rfl

theorem failed_idle (s : File.Sink) (o : File.Outcome) (h : o ≠ .ok) (text : Str) (past rest : List (Obj → Obj))
    (hsplit : body text = past ++ rest) : past.foldl (fun r f => f r) (.file s o) = .file s o := by
  have hall : ∀ f ∈ past, ∃ g, f = onBackend g := by
    intro f hf
    have : f ∈ body text := by rw [hsplit]; simp [hf]
    simp only [body, List.cons_append, List.mem_cons, List.mem_append, List.mem_map, List.not_mem_nil, or_false] at this
    rcases this with rfl | ⟨c, -, rfl⟩ | rfl
    · exact ⟨_, rfl⟩
    · exact ⟨_, rfl⟩
    · exact ⟨_, rfl⟩
  clear hsplit
  induction past with
  | nil => rfl
  | cons f past ih =>
    obtain ⟨g, rfl⟩ := hall f List.mem_cons_self
    rw [List.foldl_cons, onBackend_failed g s o h]
    exact ih fun f hf => hall f (List.mem_cons_of_mem _ hf)

/-- Done without interruption, the actions of an emit are `emit`. -/
theorem file_apply (i j : Nat) (rep : Reply) (sev : Int) (text : Str) (s : File.Sink) (out : File.Outcome) :
    (fileEmit i j rep sev text).toOp.apply (.file s out) = .file (s.emit rep.file text).1 (s.emit rep.file text).2 := by
  unfold Lock.Op.apply
  rw [steps_eq, List.foldl_cons]
  show (body text).foldl _ (Obj.file (s.getBackend rep.file).1 (s.getBackend rep.file).2) = _
  rcases File.emit_cases s rep.file text with ⟨h1, h2⟩ | ⟨h1, h2⟩
  · rw [h2, h1]
    have hb := getBackend_some s rep.file h1
    generalize (s.getBackend rep.file).1 = s' at hb ⊢
    simp only [body, List.cons_append, List.foldl_cons, List.foldl_append]
    have : onBackend beginWrite (.file s' .ok) = .file (writing s' []) .ok := by
      simp only [onBackend, beginWrite_eq s' hb]
    rw [this, puts_eq s' hb]
    simp only [List.foldl_nil, List.nil_append, onBackend, commit_eq s' hb]
  · rw [h2]
    exact failed_idle _ _ h1 text (body text) [] (by simp)

theorem onBackend_other {f : File.Sink → File.Sink} {x : Obj} (h : ∀ s o, x ≠ .file s o) : onBackend f x = x := by
  cases x with
  | file s o => exact absurd rfl (h s o)
  | stream p => rfl
  | other g => rfl

theorem file_apply_other (i j : Nat) (rep : Reply) (sev : Int) (text : Str) (x : Obj) (h : ∀ s o, x ≠ .file s o) :
    (fileEmit i j rep sev text).toOp.apply x = x := by
  unfold Lock.Op.apply
  have hall : ∀ f ∈ (fileEmit i j rep sev text).steps, f x = x := by
    intro f hf
    rw [steps_eq] at hf
    simp only [body, List.cons_append, List.mem_cons, List.mem_append, List.mem_map, List.not_mem_nil, or_false] at hf
    rcases hf with rfl | rfl | ⟨c, -, rfl⟩ | rfl
    · cases x with
      | file s o => exact absurd rfl (h s o)
      | stream p => rfl
      | other g => rfl
    · exact onBackend_other h
    · exact onBackend_other h
    · exact onBackend_other h
  generalize (fileEmit i j rep sev text).steps = l at hall
  induction l with
  | nil => rfl
  | cons f l ih =>
    rw [List.foldl_cons, hall f List.mem_cons_self]
    exact ih fun f hf => hall f (List.mem_cons_of_mem _ hf)

theorem contents_writing {s : File.Sink} (hi : File.Inv s) (hb : s.backend ≠ none) (bytes : Str) :
    File.contents (writing s bytes).streams = File.contents s.streams ++ bytes := by
  cases h : s.backend with
  | none => exact absurd h hb
  | some b =>
    obtain ⟨pre, st, e, -⟩ := hi.some b h
    simp only [writing, e, File.mapLast_snoc]
    simp [File.contents, File.chunks_append, File.chunks]

theorem prefix_map_split {α β : Type} (f : α → β) (l : List α) (a b : List β) (h : l.map f = a ++ b) :
    ∃ l1 l2, l = l1 ++ l2 ∧ a = l1.map f ∧ b = l2.map f := by
  induction a generalizing l with
  | nil => exact ⟨[], l, rfl, rfl, h.symm⟩
  | cons x a ih =>
    cases l with
    | nil => cases h
    | cons y l =>
      injection h with h1 h2
      obtain ⟨l1, l2, rfl, rfl, e⟩ := ih l h2
      exact ⟨y :: l1, l2, rfl, by rw [← h1]; rfl, e⟩

/-- In the middle of an emit: what is in the files is what was in them, and a beginning of the line. -/
theorem file_partial (i j : Nat) (rep : Reply) (sev : Int) (text : Str) (s : File.Sink) (out : File.Outcome)
    (hi : File.Inv s) (past rest : List (Obj → Obj)) (hsplit : (fileEmit i j rep sev text).steps = past ++ rest) :
    ∃ s' out' current, past.foldl (fun r f => f r) (.file s out) = .file s' out'
      ∧ File.contents s'.streams = File.contents s.streams ++ current ∧ current <+: text ++ ['\n'] := by
  rw [steps_eq] at hsplit
  cases past with
  | nil => exact ⟨s, out, [], rfl, by simp, List.nil_prefix⟩
  | cons f past =>
    injection hsplit with h1 h2
    subst h1
    rw [List.foldl_cons]
    show ∃ s' out' current, past.foldl _ (Obj.file (s.getBackend rep.file).1 (s.getBackend rep.file).2) = Obj.file s' out' ∧ _
    obtain ⟨hi', hc, -⟩ := File.getBackend_inv hi rep.file
    by_cases hok : (s.getBackend rep.file).2 = .ok
    · rw [hok]
      have hb := getBackend_some s rep.file hok
      rw [← hc]
      generalize (s.getBackend rep.file).1 = s1 at hi' hb ⊢
      cases past with
      | nil => exact ⟨s1, .ok, [], rfl, by simp, List.nil_prefix⟩
      | cons g past =>
        simp only [body, List.cons_append] at h2
        injection h2 with h3 h4
        subst h3
        rw [List.foldl_cons]
        have : onBackend beginWrite (.file s1 .ok) = .file (writing s1 []) .ok := by
          simp only [onBackend, beginWrite_eq s1 hb]
        rw [this]
        have h4 : (text ++ ['\n']).map (fun c => onBackend (putChar c)) ++ [onBackend (commit (text.length + 1))] = past ++ rest := h4
        rcases List.eq_nil_or_concat rest with rfl | ⟨rest', z, rfl⟩
        · rw [List.append_nil] at h4
          rw [← h4, List.foldl_append, puts_eq s1 hb]
          simp only [List.foldl_cons, List.foldl_nil, List.nil_append, onBackend, commit_eq s1 hb]
          exact ⟨_, _, text ++ ['\n'], rfl, (File.write_inv hi' hb text).2.1, List.prefix_refl _⟩
        · rw [List.concat_eq_append, ← List.append_assoc] at h4
          obtain ⟨h5, -⟩ := List.append_inj' h4 rfl
          obtain ⟨l1, l2, e1, e2, -⟩ := prefix_map_split _ _ _ _ h5
          rw [e2, puts_eq s1 hb]
          exact ⟨_, _, l1, rfl, by rw [List.nil_append]; exact contents_writing hi' hb l1, ⟨l2, e1.symm⟩⟩
    · rw [failed_idle _ _ hok text past rest h2]
      exact ⟨_, _, [], rfl, by rw [hc]; simp, List.nil_prefix⟩

/-! ## What a thread emits -/

abbrev Done := List (Emit × Bool)

/-- What the sink at a place was given. -/
def emitsAt (k : Place) (d : Done) : List (Reply × Int × Str) :=
  d.filterMap fun x => if x.1.res = k then x.1.what else none

theorem emitsAt_append (k : Place) (a b : Done) : emitsAt k (a ++ b) = emitsAt k a ++ emitsAt k b := by
  simp [emitsAt]

theorem emitsAt_cons (k : Place) (x : Emit × Bool) (d : Done) :
    emitsAt k (x :: d) = (if x.1.res = k then x.1.what else none).toList ++ emitsAt k d := by
  unfold emitsAt
  rw [List.filterMap_cons]
  split
  · rename_i h; rw [h]; rfl
  · rename_i h; rw [h]; rfl

theorem emitsAt_nil {k : Place} {d : Done} (h : ∀ x ∈ d, x.1.res ≠ k) : emitsAt k d = [] := by
  unfold emitsAt
  rw [List.filterMap_eq_nil_iff]
  intro x hx
  rw [if_neg (h x hx)]

theorem Complete.did {p : List (List Task)} {d : Done} (h : Complete p d) : ∀ x ∈ d, In p x.1 := by
  induction h with
  | nil => intro x hx; cases hx
  | next _ ih =>
    intro x hx
    obtain ⟨g, hg, hx⟩ := ih x hx
    exact ⟨g, by simp [hg], hx⟩
  | @ok op ops groups d _ ih =>
    intro x hx
    rcases List.mem_cons.1 hx with rfl | hx
    · exact ⟨op :: ops, by simp, op, by simp, .inl rfl⟩
    · obtain ⟨g, hg, y, hy, e⟩ := ih x hx
      rcases List.mem_cons.1 hg with rfl | hg
      · exact ⟨op :: g, by simp, y, by simp [hy], e⟩
      · exact ⟨g, by simp [hg], y, hy, e⟩
  | @failed op ops groups d _ ih =>
    intro x hx
    rcases List.mem_cons.1 hx with rfl | hx
    · exact ⟨op :: ops, by simp, op, by simp, .inl rfl⟩
    · obtain ⟨g, hg, y, hy, e⟩ := ih x hx
      rcases List.mem_cons.1 hg with rfl | hg
      · obtain ⟨z, hz, rfl⟩ := List.mem_map.1 hy
        refine ⟨op :: ops, by simp, op, by simp, .inr ?_⟩
        rcases e with rfl | e
        · exact hz
        · simp [Lock.Op.alone] at e
      · exact ⟨g, by simp [hg], y, hy, e⟩

/-- An emit can end by an exception. -/
def CanFail (op : Emit) : Prop := ∃ r, op.failed (op.apply r) = true

/-- Failures in `d` are possible ones. -/
def Honest (d : Done) : Prop := ∀ x ∈ d, x.2 = true → CanFail x.1

theorem file_canFail {i j : Nat} {rep : Reply} {sev : Int} {text : Str} (h : CanFail (fileEmit i j rep sev text).toOp) :
    rep.file.opened = none ∨ rep.file.recorded = none := by
  obtain ⟨r, h⟩ := h
  cases r with
  | file s out =>
    rw [file_apply] at h
    refine Pipeline.file_throws (s := s) (m := text) ?_
    intro e
    simp only [fileEmit, threw, e] at h
    cases h
  | stream p => rw [file_apply_other _ _ _ _ _ _ (by simp)] at h; cases h
  | other g => rw [file_apply_other _ _ _ _ _ _ (by simp)] at h; cases h

/-- Where the emits of a sink work. -/
theorem emits_res {i j : Nat} {rep : Reply} {sev : Int} {text : Str} {s : Pipeline.Sink} {x : Task}
    (hx : x ∈ emits i j rep sev text s) :
    (x.res = .sink i j ∨ ∃ st, x.res = .stream st) ∧ ∀ op ∈ x.rescue, op.res = .stream .stdout := by
  cases s with
  | file path s =>
    simp only [emits, List.mem_singleton] at hx
    subst hx
    refine ⟨.inl rfl, ?_⟩
    intro op hop
    simp only [fileEmit, List.mem_singleton] at hop
    rw [hop]; rfl
  | console k out =>
    simp only [emits] at hx
    split at hx
    · cases hx
    · rw [List.mem_singleton] at hx
      subst hx
      exact ⟨.inr ⟨_, rfl⟩, by intro op hop; cases hop⟩
  | null => cases hx
  | other s given =>
    simp only [emits, List.mem_singleton] at hx
    subst hx
    refine ⟨.inl rfl, ?_⟩
    intro op hop
    simp only [otherEmit, List.mem_singleton] at hop
    rw [hop]; rfl

theorem emitAll_mem {i : Nat} {reps : Nat → Reply} {sev : Int} {text : Str} {j : Nat} {sinks : List Pipeline.Sink} {x : Task}
    (hx : x ∈ emitAll i reps sev text j sinks) :
    ∃ k s, sinks[k]? = some s ∧ x ∈ emits i (j + k) (reps (j + k)) sev text s := by
  induction sinks generalizing j with
  | nil => cases hx
  | cons s rest ih =>
    simp only [emitAll, List.mem_append] at hx
    rcases hx with hx | hx
    · exact ⟨0, s, rfl, hx⟩
    · obtain ⟨k, s', h1, h2⟩ := ih hx
      refine ⟨k + 1, s', h1, ?_⟩
      have : j + 1 + k = j + (k + 1) := by omega
      rw [← this]
      exact h2

/-- What an emit within a group does elsewhere. -/
theorem group_other {i : Nat} {reps : Nat → Reply} {sev : Int} {text : Str} {j : Nat} {sinks : List Pipeline.Sink} {d : Done}
    (h : Complete [emitAll i reps sev text j sinks] d) {i' j' : Nat} (hne : i' ≠ i ∨ j' < j) :
    emitsAt (.sink i' j') d = [] := by
  refine emitsAt_nil fun x hx => ?_
  obtain ⟨g, hg, y, hy, e⟩ := Complete.did h x hx
  rw [List.mem_singleton] at hg
  subst hg
  obtain ⟨k, s, -, hm⟩ := emitAll_mem hy
  obtain ⟨h1, h2⟩ := emits_res hm
  rcases e with e | e
  · rw [e]
    rcases h1 with h1 | ⟨st, h1⟩
    · rw [h1]
      simp only [ne_eq, Place.sink.injEq, not_and]
      intro a b
      omega
    · rw [h1]; simp
  · rw [h2 _ e]; simp

/-- Sinks of which the process has the state: not the ones on a standard stream. -/
def Own : Pipeline.Sink → Prop
  | .file _ _ | .other _ _ => True
  | _ => False

/-- The emits of a group: the sink gets the text, unless an earlier one fails. -/
theorem group_spec {i : Nat} {reps : Nat → Reply} {sev : Int} {text : Str} {j : Nat} {sinks : List Pipeline.Sink} {d : Done}
    (h : Complete [emitAll i reps sev text j sinks] d) (hh : Honest d) {m : Nat} {s0 : Pipeline.Sink}
    (hown : Own s0) (hm : sinks[m]? = some s0) :
    emitsAt (.sink i (j + m)) d = [(reps (j + m), sev, text)]
    ∨ (emitsAt (.sink i (j + m)) d = [] ∧ ∃ k s, k < m ∧ sinks[k]? = some s ∧ Fails (reps (j + k)) s) := by
  induction sinks generalizing j m d with
  | nil => cases hm
  | cons s rest ih =>
    have next : ∀ {d' : Done}, Complete [emitAll i reps sev text (j + 1) rest] d' → Honest d' → 0 < m →
        emitsAt (.sink i (j + m)) d' = [(reps (j + m), sev, text)]
        ∨ (emitsAt (.sink i (j + m)) d' = [] ∧ ∃ k t, k < m ∧ (s :: rest)[k]? = some t ∧ Fails (reps (j + k)) t) := by
      intro d' hd' hhd' hpos
      obtain ⟨m', rfl⟩ : ∃ m', m = m' + 1 := ⟨m - 1, by omega⟩
      have e : j + 1 + m' = j + (m' + 1) := by omega
      rw [← e]
      rcases ih hd' hhd' (m := m') hm with h1 | ⟨h1, k, t, h2, h3, h4⟩
      · exact .inl h1
      · refine .inr ⟨h1, k + 1, t, by omega, h3, ?_⟩
        have : j + 1 + k = j + (k + 1) := by omega
        rw [← this]; exact h4
    -- a task that is not for this sink
    have step : ∀ (x : Task), x.res ≠ .sink i (j + m) → (∀ op ∈ x.rescue, op.res ≠ .sink i (j + m)) → 0 < m →
        (CanFail x.toOp → Fails (reps j) s) → Complete [x :: emitAll i reps sev text (j + 1) rest] d →
        emitsAt (.sink i (j + m)) d = [(reps (j + m), sev, text)]
        ∨ (emitsAt (.sink i (j + m)) d = [] ∧ ∃ k t, k < m ∧ (s :: rest)[k]? = some t ∧ Fails (reps (j + k)) t) := by
      intro x hx hr hpos hf hc
      cases hc with
      | ok hc =>
        rcases next hc (fun y hy => hh y (List.mem_cons_of_mem _ hy)) hpos with h1 | ⟨h1, h2⟩
        · left
          rw [emitsAt_cons, if_neg hx]; exact h1
        · right
          exact ⟨by rw [emitsAt_cons, if_neg hx]; exact h1, h2⟩
      | failed hc =>
        right
        refine ⟨?_, 0, s, hpos, rfl, hf (hh _ List.mem_cons_self rfl)⟩
        refine emitsAt_nil fun y hy => ?_
        rcases List.mem_cons.1 hy with rfl | hy
        · exact hx
        · obtain ⟨g, hg, z, hz, e⟩ := Complete.did hc y hy
          rw [List.mem_singleton] at hg
          subst hg
          obtain ⟨w, hw, rfl⟩ := List.mem_map.1 hz
          rcases e with e | e
          · rw [e]; exact hr _ hw
          · simp [Lock.Op.alone] at e
    cases m with
    | zero =>
      injection hm with hm
      subst hm
      left
      have hrest : ∀ d' : Done, Complete [emitAll i reps sev text (j + 1) rest] d' → emitsAt (.sink i (j + 0)) d' = [] :=
        fun d' hd' => group_other hd' (.inr (by omega))
      have first : ∀ (x : Task) (d : Done), x.res = .sink i j → x.what = some (reps j, sev, text) →
          (∀ op ∈ x.rescue, op.res ≠ .sink i j) → Complete [x :: emitAll i reps sev text (j + 1) rest] d →
          emitsAt (.sink i (j + 0)) d = [(reps (j + 0), sev, text)] := by
        intro x d hx hw hr h'
        cases h' with
        | ok h' =>
          rw [emitsAt_cons, hrest _ h']
          simp [hx, hw]
        | failed h' =>
          rename_i d'
          have : emitsAt (.sink i (j + 0)) d' = [] := by
            refine emitsAt_nil fun y hy => ?_
            obtain ⟨g, hg, z, hz, e⟩ := Complete.did h' y hy
            rw [List.mem_singleton] at hg
            subst hg
            obtain ⟨w, hw, rfl⟩ := List.mem_map.1 hz
            rcases e with e | e
            · rw [e]; exact hr w hw
            · simp [Lock.Op.alone] at e
          rw [emitsAt_cons, this]
          simp [hx, hw]
      cases s with
      | file path s0 =>
        refine first (fileEmit i j (reps j) sev text) d rfl rfl (fun op hop => ?_) h
        simp only [fileEmit, List.mem_singleton] at hop
        rw [hop]; simp [report]
      | other s0 given =>
        refine first _ d rfl rfl (fun op hop => ?_) h
        simp only [otherEmit, List.mem_singleton] at hop
        rw [hop]; simp [report]
      | console _ _ => exact hown.elim
      | null => exact hown.elim
    | succ m =>
      cases hs : s with
      | file path' s' =>
        rw [← hs]
        refine step (fileEmit i j (reps j) sev text) (by simp [fileEmit]) ?_ (by omega) ?_ ?_
        · intro op hop
          simp only [fileEmit, List.mem_singleton] at hop
          rw [hop]; simp [report]
        · intro hcf; rw [hs]; exact file_canFail hcf
        · rw [hs] at h; exact h
      | console k out =>
        rw [hs] at h
        simp only [emitAll, emits] at h
        split at h
        · rw [← hs]; exact next h hh (by omega)
        · rw [← hs]
          refine step (consoleEmit k (reps j) sev text) (by simp [consoleEmit]) ?_ (by omega) ?_ h
          · intro op hop; cases hop
          · rintro ⟨r, hr⟩; cases hr
      | null =>
        rw [hs] at h
        rw [← hs]
        exact next h hh (by omega)
      | other s' given =>
        rw [hs] at h
        rw [← hs]
        refine step _ ?_ ?_ (by omega) ?_ h
        · simp [otherEmit]
        · intro op hop
          simp only [otherEmit, List.mem_singleton] at hop
          rw [hop]; simp [report]
        · rintro ⟨r, hr⟩
          rw [hs]
          simpa [Fails, otherEmit] using hr

/-! ## Handlers and calls -/

/-- What handling does: the emits of the text, or a report. -/
theorem handle_cases {p : Process} {c : Call} {i : Nat} {h : Handler} {r : Rec.Record} {g : List Task}
    (hh : handle p c i h r = .ok g) :
    (∃ text, Pipeline.render p c.lwp r h.formatter = .ok text ∧ g = emitAll i (c.replies i) r.severity text 0 h.sinks)
    ∨ ((∀ text, Pipeline.render p c.lwp r h.formatter ≠ .ok text) ∧ ∃ o, g = [(report o).alone]) := by
  unfold handle at hh
  split at hh
  · cases hh
  · cases hh
  · rename_i e; cases hh; exact .inr ⟨fun text ht => (by rw [e] at ht; cases ht), _, rfl⟩
  · rename_i e; cases hh; exact .inr ⟨fun text ht => (by rw [e] at ht; cases ht), _, rfl⟩
  · rename_i e; cases hh; exact .inr ⟨fun text ht => (by rw [e] at ht; cases ht), _, rfl⟩
  · rename_i text e; cases hh; exact .inl ⟨text, e, rfl⟩

/-- Emits of the sinks of one handler are not on sinks of another. -/
theorem handle_other {p : Process} {c : Call} {i : Nat} {h : Handler} {r : Rec.Record} {g : List Task} {d : Done}
    (hh : handle p c i h r = .ok g) (hc : Complete [g] d) {i' j' : Nat} (hne : i' ≠ i) : emitsAt (.sink i' j') d = [] := by
  rcases handle_cases hh with ⟨text, -, rfl⟩ | ⟨-, o, rfl⟩
  · exact group_other hc (.inl hne)
  · refine emitsAt_nil fun x hx => ?_
    obtain ⟨g, hg, y, hy, e⟩ := Complete.did hc x hx
    simp only [List.mem_singleton] at hg
    subst hg
    simp only [List.mem_singleton] at hy
    subst hy
    rcases e with e | e
    · rw [e]; simp [report, Lock.Op.alone]
    · simp [Lock.Op.alone] at e

theorem handleAll_range {p : Process} {hs : List Handler} {c : Call} {r : Root.Rec} (k n : Nat) {gs : List (List Task)}
    {d : Done} (h : handleAll p hs c ((List.range' k n).map fun i => (i, r)) = .ok gs) (hc : Complete gs d)
    {i j : Nat} {hd : Handler} (hi : hs[i]? = some hd) :
    (¬ (k ≤ i ∧ i < k + n) → emitsAt (.sink i j) d = [])
    ∧ (k ≤ i → i < k + n → ∃ g d', handle p c i hd (Pipeline.recordOf p r) = .ok g ∧ Complete [g] d'
        ∧ (∀ x ∈ d', x ∈ d) ∧ emitsAt (.sink i j) d = emitsAt (.sink i j) d') := by
  induction n generalizing k gs d with
  | zero =>
    cases h
    cases hc
    exact ⟨fun _ => rfl, fun _ _ => by omega⟩
  | succ n ih =>
    simp only [List.range'_succ, List.map_cons, handleAll] at h
    split at h
    · cases h
    · rename_i h0 hk
      split at h
      · cases h
      · rename_i g0 hg0
        split at h
        · cases h
        · rename_i gs' hgs'
          cases h
          obtain ⟨d1, d2, rfl, hc1, hc2⟩ := Complete.append (a := [g0]) (b := gs') hc
          obtain ⟨ih1, ih2⟩ := ih (k + 1) hgs' hc2
          rw [emitsAt_append]
          by_cases hik : i = k
          · subst hik
            refine ⟨fun hx => by omega, fun _ _ => ⟨g0, d1, ?_, hc1, fun x hx => by simp [hx], ?_⟩⟩
            · rw [hi] at hk
              cases hk
              exact hg0
            · rw [ih1 (by omega)]; simp
          · rw [handle_other hg0 hc1 hik]
            refine ⟨fun hx => ih1 (by omega), fun h1 h2 => ?_⟩
            obtain ⟨g, d', a, b, e1, e2⟩ := ih2 (by omega) (by omega)
            exact ⟨g, d', a, b, fun x hx => by simp [e1 x hx], e2⟩

/-- One log call, seen from one sink. -/
theorem logCall_given {p : Process} {hs : List Handler} {c : Call} {gs : List (List Task)} {d : Done}
    (h : logCall p hs c = .ok gs) (hc : Complete gs d) (hh : Honest d) {i j : Nat} {hd : Handler}
    {s0 : Pipeline.Sink} (hi : hs[i]? = some hd) (hown : Own s0) (hj : hd.sinks[j]? = some s0) :
    ∃ g, Given p hd i j c g ∧ emitsAt (.sink i j) d = g.toList := by
  unfold logCall at h
  split at h
  · cases h
  · rename_i res hlog
    split at h
    · cases h
    · rename_i gs' hgs
      cases h
      rcases Pipeline.log_calls hlog with ⟨r, hacc, hcalls⟩ | ⟨hno, hcalls⟩
      · rw [hcalls, List.range_eq_range', Pipeline.roots_length] at hgs
        have hlt : i < hs.length := (List.getElem?_eq_some_iff.1 hi).1
        obtain ⟨g, d', h1, h2, h3, h4⟩ := (handleAll_range 0 hs.length hgs hc (j := j) hi).2 (by omega) (by omega)
        rw [h4]
        have hsev : (Pipeline.recordOf p r).severity = c.severity := by cases hacc; rfl
        rcases handle_cases h1 with ⟨text, ht, rfl⟩ | ⟨hnt, o, rfl⟩
        · rw [hsev] at h2
          rcases group_spec h2 (fun x hx => hh x (h3 x hx)) hown hj with e | ⟨e, k, s, a, b, f⟩
          · rw [Nat.zero_add] at e
            exact ⟨_, .emitted hacc (Pipeline.renders_iff.2 ht), by rw [e]; rfl⟩
          · rw [Nat.zero_add] at e f
            exact ⟨none, .earlier a b f, by rw [e]; rfl⟩
        · refine ⟨none, .notRendered hacc (fun text ht => hnt text (Pipeline.renders_iff.1 ht)), ?_⟩
          refine emitsAt_nil fun x hx => ?_
          obtain ⟨g, hg, y, hy, e⟩ := Complete.did h2 x hx
          simp only [List.mem_singleton] at hg
          subst hg
          simp only [List.mem_singleton] at hy
          subst hy
          rcases e with e | e
          · rw [e]; simp [report, Lock.Op.alone]
          · simp [Lock.Op.alone] at e
      · rw [hcalls] at hgs
        cases hgs
        cases hc
        exact ⟨none, .notAccepted hno, rfl⟩

theorem program_given {p : Process} {hs : List Handler} {cs : List Call} {gs : List (List Task)} {d : Done}
    (h : program p hs cs = .ok gs) (hc : Complete gs d) (hh : Honest d) {i j : Nat} {hd : Handler}
    {s0 : Pipeline.Sink} (hi : hs[i]? = some hd) (hown : Own s0) (hj : hd.sinks[j]? = some s0) :
    ∃ gl, Both (Given p hd i j) cs gl ∧ emitsAt (.sink i j) d = gl.flatMap Option.toList := by
  induction cs generalizing gs d with
  | nil =>
    cases h
    cases hc
    exact ⟨[], .nil, rfl⟩
  | cons c cs ih =>
    simp only [program] at h
    split at h
    · cases h
    · rename_i g1 hg1
      split at h
      · cases h
      · rename_i g2 hg2
        cases h
        obtain ⟨d1, d2, rfl, hc1, hc2⟩ := Complete.append hc
        obtain ⟨g, hg, e1⟩ := logCall_given hg1 hc1 (fun x hx => hh x (by simp [hx])) hi hown hj
        obtain ⟨gl, hgl, e2⟩ := ih hg2 hc2 (fun x hx => hh x (by simp [hx]))
        exact ⟨g :: gl, .cons hg hgl, by rw [emitsAt_append, e1, e2, List.flatMap_cons]⟩

/-! ## What kinds of emits there are -/

/-- An emit of some sink, or a report. -/
inductive Kind (hs : List Handler) : Emit → Prop
  | file {i j : Nat} {h : Handler} {path : Str} {s : File.Sink} {rep : Reply} {sev : Int} {text : Str} :
      hs[i]? = some h → h.sinks[j]? = some (.file path s) → Kind hs (fileEmit i j rep sev text).toOp
  | console {i j : Nat} {h : Handler} {k : Console.Sink} {out : Str} {rep : Reply} {sev : Int} {text : Str} :
      hs[i]? = some h → h.sinks[j]? = some (.console k out) → k.filter sev ≠ .deny →
      Kind hs (consoleEmit k rep sev text).toOp
  | other {i j : Nat} {h : Handler} {s : Essentials.Sink} {given : List Str} {rep : Reply} {sev : Int} {text : Str} :
      hs[i]? = some h → h.sinks[j]? = some (.other s given) →
      Kind hs { res := .sink i j, lock := some (.sink i j), what := some (rep, sev, text), steps := [take text],
                failed := fun _ => rep.other != .ok }
  | report {o : Root.HOut} : Kind hs (report o)

theorem emits_kind {hs : List Handler} {i j : Nat} {h : Handler} {s : Pipeline.Sink} {rep : Reply} {sev : Int} {text : Str}
    {x : Task} (hi : hs[i]? = some h) (hj : h.sinks[j]? = some s) (hx : x ∈ emits i j rep sev text s) :
    Kind hs x.toOp ∧ ∀ op ∈ x.rescue, Kind hs op := by
  cases s with
  | file path s =>
    simp only [emits, List.mem_singleton] at hx
    subst hx
    refine ⟨.file hi hj, ?_⟩
    intro op hop
    simp only [fileEmit, List.mem_singleton] at hop
    rw [hop]; exact .report
  | console k out =>
    simp only [emits] at hx
    split at hx
    · cases hx
    · rename_i hf
      rw [List.mem_singleton] at hx
      subst hx
      exact ⟨.console hi hj hf, by intro op hop; cases hop⟩
  | null => cases hx
  | other s given =>
    simp only [emits, List.mem_singleton] at hx
    subst hx
    refine ⟨.other hi hj, ?_⟩
    intro op hop
    simp only [otherEmit, List.mem_singleton] at hop
    rw [hop]; exact .report

theorem handle_kind {p : Process} {hs : List Handler} {c : Call} {i : Nat} {h : Handler} {r : Rec.Record} {g : List Task}
    (hi : hs[i]? = some h) (hh : handle p c i h r = .ok g) {op : Emit} (hop : In [g] op) : Kind hs op := by
  obtain ⟨g', hg', x, hx, e⟩ := hop
  rw [List.mem_singleton] at hg'
  subst hg'
  rcases handle_cases hh with ⟨text, -, rfl⟩ | ⟨-, o, rfl⟩
  · obtain ⟨k, s, h1, h2⟩ := emitAll_mem hx
    rw [Nat.zero_add] at h2
    obtain ⟨a, b⟩ := emits_kind hi h1 h2
    rcases e with rfl | e
    · exact a
    · exact b op e
  · simp only [List.mem_singleton] at hx
    subst hx
    rcases e with rfl | e
    · exact .report
    · simp [Lock.Op.alone] at e

theorem in_append {a b : List (List Task)} {op : Emit} : In (a ++ b) op ↔ In a op ∨ In b op := by
  constructor
  · rintro ⟨g, hg, hx⟩
    rcases List.mem_append.1 hg with hg | hg
    · exact .inl ⟨g, hg, hx⟩
    · exact .inr ⟨g, hg, hx⟩
  · rintro (⟨g, hg, hx⟩ | ⟨g, hg, hx⟩)
    · exact ⟨g, List.mem_append_left _ hg, hx⟩
    · exact ⟨g, List.mem_append_right _ hg, hx⟩

theorem handleAll_kind {p : Process} {hs : List Handler} {c : Call} {l : List (Nat × Root.Rec)} {gs : List (List Task)}
    (h : handleAll p hs c l = .ok gs) {op : Emit} (hop : In gs op) : Kind hs op := by
  induction l generalizing gs with
  | nil =>
    cases h
    obtain ⟨g, hg, -⟩ := hop
    cases hg
  | cons x l ih =>
    obtain ⟨i, r⟩ := x
    simp only [handleAll] at h
    split at h
    · cases h
    · rename_i h0 hi
      split at h
      · cases h
      · rename_i g hg
        split at h
        · cases h
        · rename_i gs' hgs
          cases h
          rcases (in_append (a := [g]) (b := gs')).1 hop with h1 | h1
          · exact handle_kind hi hg h1
          · exact ih hgs h1

theorem program_kind {p : Process} {hs : List Handler} {cs : List Call} {gs : List (List Task)}
    (h : program p hs cs = .ok gs) {op : Emit} (hop : In gs op) : Kind hs op := by
  induction cs generalizing gs with
  | nil =>
    cases h
    obtain ⟨g, hg, -⟩ := hop
    cases hg
  | cons c cs ih =>
    simp only [program] at h
    split at h
    · cases h
    · rename_i g1 hg1
      split at h
      · cases h
      · rename_i g2 hg2
        cases h
        rcases in_append.1 hop with h1 | h1
        · unfold logCall at hg1
          split at hg1
          · cases hg1
          · split at hg1
            · cases hg1
            · rename_i gs' hgs
              cases hg1
              exact handleAll_kind hgs h1
        · exact ih hg2 h1

end Blackhole.Shared
