import Verif.Root.Spec

namespace Blackhole.Root

theorem calls_append (a b : Trace) : calls (a ++ b) = calls a ++ calls b := by
  induction a with
  | nil => rfl
  | cons e a ih => cases e <;> simp [calls, ih]

theorem supplies_append (a b : Trace) : supplies (a ++ b) = supplies a + supplies b := by
  induction a with
  | nil => simp [supplies]
  | cons e a ih => cases e <;> simp [supplies, ih] <;> omega

theorem filtered_append (a b : Trace) : filtered (a ++ b) = filtered a ++ filtered b := by
  induction a with
  | nil => rfl
  | cons e a ih => cases e <;> simp [filtered, ih]

theorem printed_append (a b : Trace) : printed (a ++ b) = printed a ++ printed b := by
  induction a with
  | nil => rfl
  | cons e a ih => cases e <;> simp [printed, ih]

@[simp] theorem calls_diag (o : HOut) : calls (diagnostic o) = [] := by cases o <;> rfl
@[simp] theorem supplies_diag (o : HOut) : supplies (diagnostic o) = 0 := by cases o <;> rfl
@[simp] theorem filtered_diag (o : HOut) : filtered (diagnostic o) = [] := by cases o <;> rfl

/-- The handler loop, projected to handler calls. -/
theorem calls_handleAll (r : Rec) (i : Nat) (hs : List Handler) (tr : Trace) :
    calls (handleAll r i hs tr) = calls tr ++ (List.range' i hs.length).map fun j => (j, r) := by
  induction hs generalizing i tr with
  | nil => simp [handleAll]
  | cons h hs ih =>
    simp [handleAll, ih, calls_append, calls, List.range'_succ]

theorem supplies_handleAll (r : Rec) (i : Nat) (hs : List Handler) (tr : Trace) :
    supplies (handleAll r i hs tr) = supplies tr := by
  induction hs generalizing i tr with
  | nil => simp [handleAll]
  | cons h hs ih => simp [handleAll, ih, supplies_append, supplies]

theorem filtered_handleAll (r : Rec) (i : Nat) (hs : List Handler) (tr : Trace) :
    filtered (handleAll r i hs tr) = filtered tr := by
  induction hs generalizing i tr with
  | nil => simp [handleAll]
  | cons h hs ih => simp [handleAll, ih, filtered_append, filtered]

theorem diagnostic_eq (o : HOut) : diagnostic o = (report o).map Ev.stdout := by
  cases o <;> simp [diagnostic, report]

/-- The handler loop in full: outcomes of the calls and the state each handler was called in. -/
theorem handleAll_blocks (r : Rec) (i : Nat) (hs : List Handler) (tr : Trace) :
    ∃ outs : List HOut, outs.length = hs.length ∧ handleAll r i hs tr = tr ++ blocks r i outs ∧
      ∀ (j : Nat) (h : Handler), hs[j]? = some h →
        outs[j]? = some (h (tr ++ blocks r i (outs.take j)) r) := by
  induction hs generalizing i tr with
  | nil => exact ⟨[], rfl, by simp [handleAll, blocks], by simp⟩
  | cons h hs ih =>
    obtain ⟨outs, hl, he, ho⟩ := ih (i + 1) (tr ++ [.handle i r (h tr r)] ++ diagnostic (h tr r))
    refine ⟨h tr r :: outs, by simp [hl], ?_, ?_⟩
    · rw [handleAll, he]; simp [blocks, diagnostic_eq]
    · intro j h' hj
      cases j with
      | zero => simp at hj; subst hj; simp [blocks]
      | succ j =>
        simp at hj
        have := ho j h' hj
        simp [this, blocks, diagnostic_eq]

/-- The loop only appends to the trace. -/
theorem handleAll_prefix (r : Rec) (i : Nat) (hs : List Handler) (tr : Trace) :
    ∃ rest, handleAll r i hs tr = tr ++ rest := by
  induction hs generalizing i tr with
  | nil => exact ⟨[], by simp [handleAll]⟩
  | cons h hs ih =>
    obtain ⟨rest, hr⟩ := ih (i + 1) (tr ++ [.handle i r (h tr r)] ++ diagnostic (h tr r))
    exact ⟨[.handle i r (h tr r)] ++ diagnostic (h tr r) ++ rest, by rw [handleAll, hr]; simp⟩

theorem logPack_eq (e : Env) (sev : Int) (msg : Str) (lg : Logger) (pack : Pack) :
    lg.logPack e sev msg pack =
      consume e.world e.thread e.logger e.inner e.now sev msg
        (pack ++ lg.wrappers.map viewsOf) .null := by
  induction lg generalizing pack with
  | root => simp [Logger.logPack, Logger.wrappers]
  | wrapper a inner ih => simp [Logger.logPack, Logger.wrappers, ih]

theorem logLazy_eq (e : Env) (sev : Int) (msg : Str) (f) (lg : Logger) (pack : Pack) :
    lg.logLazy e sev msg f pack =
      consume e.world e.thread e.logger e.inner e.now sev msg
        (pack ++ lg.wrappers.map viewsOf) (.lazy f) := by
  induction lg generalizing pack with
  | root => simp [Logger.logLazy, Logger.wrappers]
  | wrapper a inner ih => simp [Logger.logLazy, Logger.wrappers, ih]

theorem logMsg_eq (e : Env) (sev : Int) (msg : Str) (lg : Logger) :
    lg.logMsg e sev msg = lg.logPack e sev msg [] := by
  cases lg <;> simp [Logger.logMsg, Logger.logPack]

end Blackhole.Root
