import Verif.Wrapper.Spec

/-! # Lemmas about wrappers as objects -/

namespace Blackhole.Wrapper

open Attr (Value View)

/-! ## Elements and the attributes they represent -/

/-- The string object, whose block is at `a` if it has one, holds these characters. -/
def RepStr (h : Heap) (a : Addr) (t : Str) : SObj → Prop
  | .short s => s = t
  | .long a' n => a' = a ∧ n = t.length ∧ h a = some (.chars t)

inductive RepVal (h : Heap) (a : Addr) : OV → Value → Prop
  | null : RepVal h a .null .null
  | bool (b) : RepVal h a (.bool b) (.bool b)
  | sint (b) : RepVal h a (.sint b) (.sint b)
  | uint (b) : RepVal h a (.uint b) (.uint b)
  | double (b) : RepVal h a (.double b) (.double b)
  | string {s t} : RepStr h a t s → RepVal h a (.string s) (.string t)
  | function (id) : RepVal h a (.function id) (.function id)

/-- Elements from number `i` on, of the storage made for object `b`. -/
inductive Rep (h : Heap) (b : Nat) : Nat → List Elem → Attrs → Prop
  | nil {i} : Rep h b i [] []
  | cons {i e k v es as} : RepStr h (b, 2 * i + 1) k e.key → RepVal h (b, 2 * i + 2) e.value v → Rep h b (i + 1) es as →
      Rep h b i (e :: es) ((k, v) :: as)

/-- A view of a string object: where it looks does not matter if there is nothing to see. -/
def LooksStr (p : Place) (i : Nat) (part : Part) (s : SObj) (t : Str) (v : SV) : Prop :=
  v.len = t.length ∧ (t = [] ∨ v.loc = (viewOfStr p i part s).loc)

inductive LooksVal (p : Place) (i : Nat) : OV → Value → VV → Prop
  | null : LooksVal p i .null .null .null
  | bool (b) : LooksVal p i (.bool b) (.bool b) (.bool b)
  | sint (b) : LooksVal p i (.sint b) (.sint b) (.sint b)
  | uint (b) : LooksVal p i (.uint b) (.uint b) (.uint b)
  | double (b) : LooksVal p i (.double b) (.double b) (.double b)
  | string {s t v} : LooksStr p i .value s t v → LooksVal p i (.string s) (.string t) (.string v)
  | function (id) : LooksVal p i (.function id) (.function id) (.function p i)

inductive Looks (p : Place) : Nat → List Elem → Attrs → List (SV × VV) → Prop
  | nil {i} : Looks p i [] [] []
  | cons {i e k v kv vv es as vs} : LooksStr p i .key e.key k kv → LooksVal p i e.value v vv → Looks p (i + 1) es as vs →
      Looks p i (e :: es) ((k, v) :: as) ((kv, vv) :: vs)

theorem RepStr.frame {h h' : Heap} {a : Addr} {t : Str} {s : SObj} (r : RepStr h a t s) (e : h' a = h a) :
    RepStr h' a t s := by
  cases s with
  | short _ => exact r
  | long a' n => exact ⟨r.1, r.2.1, by rw [e]; exact r.2.2⟩

theorem RepVal.frame {h h' : Heap} {a : Addr} {o : OV} {v : Value} (r : RepVal h a o v) (e : h' a = h a) :
    RepVal h' a o v := by
  cases r with
  | string r => exact .string (r.frame e)
  | null => exact .null
  | bool b => exact .bool b
  | sint b => exact .sint b
  | uint b => exact .uint b
  | double b => exact .double b
  | function id => exact .function id

theorem Rep.frame {h h' : Heap} {b i : Nat} {es : List Elem} {as : Attrs} (r : Rep h b i es as)
    (e : ∀ k, 2 * i < k → h' (b, k) = h (b, k)) : Rep h' b i es as := by
  induction r with
  | nil => exact .nil
  | cons r1 r2 _ ih =>
    exact .cons (r1.frame (e _ (by omega))) (r2.frame (e _ (by omega))) (ih fun k hk => e k (by omega))

/-! ## Reading -/

theorem readSV_looks {m : Mem} {p : Place} {i : Nat} {part : Part} {s : SObj} {t : Str} {v : SV} {a : Addr}
    (hr : RepStr m.heap a t s) (hl : LooksStr p i part s t v)
    (hin : ∀ x, s = .short x → m.readLoc (.inside p i part) = .ok x) : m.readSV v = .ok t := by
  obtain ⟨hlen, hloc⟩ := hl
  unfold Mem.readSV
  by_cases ht : t = []
  · subst ht
    rw [if_pos (show v.len = 0 from hlen)]
  · rw [if_neg (by rw [hlen]; cases t with | nil => exact absurd rfl ht | cons _ _ => simp)]
    have hloc := hloc.resolve_left ht
    cases s with
    | short x =>
      have : v.loc = .inside p i part := hloc
      rw [this, hin x rfl]
      cases hr
      simp only [hlen, Nat.le_refl, if_true, List.take_length]
    | long a' n =>
      obtain ⟨rfl, rfl, hh⟩ := hr
      have : v.loc = .block a' := hloc
      rw [this]
      simp only [Mem.readLoc, hh, hlen, Nat.le_refl, if_true, List.take_length]

theorem readList_looks {m : Mem} {p : Place} {b i : Nat} {es : List Elem} {as : Attrs} {vs : List (SV × VV)}
    (hr : Rep m.heap b i es as) (hl : Looks p i es as vs) {pre : List Elem} (hp : m.elemsAt p = some (pre ++ es))
    (hi : pre.length = i) : m.readList vs = .ok (viewsOf as) := by
  induction hr generalizing vs pre with
  | nil => cases hl; rfl
  | @cons i e k v es as h1 h2 _ ih =>
    cases hl with
    | @cons _ _ _ _ kv vv _ _ vs l1 l2 l3 =>
      have hrest := ih l3 (pre := pre ++ [e]) (by simpa using hp) (by simp [hi])
      have hat : ((m.elemsAt p).bind fun es => es[i]?) = some e := by
        rw [hp]
        simp [← hi]
      have hk : m.readSV kv = .ok k := readSV_looks h1 l1 fun x hx => by
        simp only [Mem.readLoc, hat, hx, inString]
      have hv : m.readVV vv = .ok (View.ofValue v) := by
        obtain ⟨key, o⟩ := e
        simp only at h2 l2
        cases l2 with
        | @string s t w l2 =>
          cases h2 with
          | string h2 =>
            have : m.readSV w = .ok t := readSV_looks h2 l2 fun x hx => by
              simp only [Mem.readLoc, hat, hx, inString]
            simp only [Mem.readVV, this, View.ofValue]
        | function id => simp only [Mem.readVV, Mem.readFn, hat, View.ofValue]
        | _ => rfl
      simp only [Mem.readList, hk, hv, hrest, viewsOf]

/-! ## Shapes: what is seen without looking at memory -/

def ShapeVal : Value → VV → Prop
  | .string t, .string v => v.len = t.length
  | .function _, .function _ _ => True
  | .null, .null => True
  | .bool a, .bool b => a = b
  | .sint a, .sint b => a = b
  | .uint a, .uint b => a = b
  | .double a, .double b => a = b
  | _, _ => False

inductive Shape : Attrs → List (SV × VV) → Prop
  | nil : Shape [] []
  | cons {k v kv vv as vs} : kv.len = k.length → ShapeVal v vv → Shape as vs → Shape ((k, v) :: as) ((kv, vv) :: vs)

theorem Looks.shape {p : Place} {i : Nat} {es : List Elem} {as : Attrs} {vs : List (SV × VV)} (h : Looks p i es as vs) :
    Shape as vs := by
  induction h with
  | nil => exact .nil
  | cons h1 h2 _ ih =>
    refine .cons h1.1 ?_ ih
    rename_i e _ _ _ _ _ _ _ _
    generalize e.value = o at h2
    cases h2 with
    | string h2 => exact h2.1
    | function _ => trivial
    | null => trivial
    | _ => rfl

theorem readList_shape {m : Mem} {as : Attrs} {vs : List (SV × VV)} (h : Shape as vs) (hn : ∀ a ∈ as, ¬ HasText a) :
    m.readList vs = .ok (viewsOf as) := by
  induction h with
  | nil => rfl
  | @cons k v kv vv as vs h1 h2 _ ih =>
    have hrest := ih fun a ha => hn a (List.mem_cons_of_mem _ ha)
    have hno := hn (k, v) List.mem_cons_self
    have hk : k = [] := Classical.byContradiction fun h => hno (.inl h)
    subst hk
    have e1 : m.readSV kv = .ok [] := by
      unfold Mem.readSV
      rw [if_pos (show kv.len = 0 from h1)]
    have e2 : m.readVV vv = .ok (View.ofValue v) := by
      cases v <;> cases vv <;> simp only [ShapeVal] at h2 <;> try subst h2
      all_goals try rfl
      · rename_i t w
        have ht : t = [] := Classical.byContradiction fun h => hno (.inr (.inl ⟨t, rfl, h⟩))
        subst ht
        simp only [Mem.readVV, Mem.readSV, if_pos (show w.len = 0 from h2), View.ofValue]
      · exact absurd (Or.inr (.inr ⟨_, rfl⟩)) hno
    simp only [Mem.readList, e1, e2, hrest, viewsOf]

/-! ## Places that are gone -/

def DeadP (m : Mem) : Place → Prop
  | .obj o => m.objs[o]? = some none ∨ ∃ v, m.objs[o]? = some (some ⟨.inside [], v⟩)
  | .block a => m.heap a = none ∧ a.1 < m.objs.length

def DeadLoc (m : Mem) : Loc → Prop
  | .inside p _ _ => DeadP m p
  | .block a => DeadP m (.block a)

/-- One of the views dangles. -/
def HasDead (m : Mem) (vs : List (SV × VV)) : Prop :=
  ∃ kv ∈ vs, (kv.1.len ≠ 0 ∧ DeadLoc m kv.1.loc) ∨ (∃ v, kv.2 = .string v ∧ v.len ≠ 0 ∧ DeadLoc m v.loc)
    ∨ ∃ p i, kv.2 = .function p i ∧ DeadP m p

theorem DeadLoc.mono {m m' : Mem} (h : ∀ p, DeadP m p → DeadP m' p) {l : Loc} (hl : DeadLoc m l) : DeadLoc m' l := by
  cases l with
  | inside p i part => exact h p hl
  | block a => exact h (.block a) hl

theorem HasDead.mono {m m' : Mem} (h : ∀ p, DeadP m p → DeadP m' p) {vs : List (SV × VV)} (hd : HasDead m vs) :
    HasDead m' vs := by
  obtain ⟨kv, hkv, hd⟩ := hd
  refine ⟨kv, hkv, ?_⟩
  rcases hd with ⟨h1, h2⟩ | ⟨v, h1, h2, h3⟩ | ⟨p, i, h1, h2⟩
  · exact .inl ⟨h1, h2.mono h⟩
  · exact .inr (.inl ⟨v, h1, h2, h3.mono h⟩)
  · exact .inr (.inr ⟨p, i, h1, h p h2⟩)

theorem at_dead {m : Mem} {p : Place} (h : DeadP m p) (i : Nat) : ((m.elemsAt p).bind fun es => es[i]?) = none := by
  cases p with
  | obj o =>
    rcases h with h | ⟨v, h⟩ <;> simp [Mem.elemsAt, h]
  | block a => simp [Mem.elemsAt, h.1]

theorem readSV_dead {m : Mem} {v : SV} (hn : v.len ≠ 0) (h : DeadLoc m v.loc) : m.readSV v = .error .dangling := by
  obtain ⟨loc, len⟩ := v
  unfold Mem.readSV
  rw [if_neg hn]
  cases loc with
  | inside p i part => simp only [Mem.readLoc, at_dead h]
  | block a => simp only [Mem.readLoc, h.1]

theorem readSV_error {m : Mem} {v : SV} {u : UB} (h : m.readSV v = .error u) : u = .dangling := by
  have hin : ∀ s u, inString s = .error u → u = .dangling := by
    intro s u h; cases s <;> cases h; rfl
  unfold Mem.readSV at h
  split at h
  · cases h
  · split at h
    · rename_i u' hl
      injection h with h
      subst h
      obtain ⟨loc, len⟩ := v
      cases loc with
      | inside p i part =>
        simp only [Mem.readLoc] at hl
        split at hl
        · injection hl with hl; exact hl.symm
        · cases part with
          | key => exact hin _ _ hl
          | value =>
            simp only at hl
            split at hl
            · exact hin _ _ hl
            · injection hl with hl; exact hl.symm
      | block a =>
        simp only [Mem.readLoc] at hl
        split at hl
        · cases hl
        · injection hl with hl; exact hl.symm
    · split at h
      · cases h
      · injection h with h; exact h.symm

theorem readVV_error {m : Mem} {v : VV} {u : UB} (h : m.readVV v = .error u) : u = .dangling := by
  cases v with
  | string v =>
    simp only [Mem.readVV] at h
    split at h
    · rename_i h'
      injection h with h
      subst h
      exact readSV_error h'
    · cases h
  | function p i =>
    simp only [Mem.readVV] at h
    split at h
    · rename_i h'
      injection h with h
      subst h
      unfold Mem.readFn at h'
      split at h'
      · cases h'
      · injection h' with h'; exact h'.symm
    · cases h
  | _ => cases h

theorem readList_error {m : Mem} {vs : List (SV × VV)} {u : UB} (h : m.readList vs = .error u) : u = .dangling := by
  induction vs generalizing u with
  | nil => cases h
  | cons kv vs ih =>
    obtain ⟨k, v⟩ := kv
    simp only [Mem.readList] at h
    split at h
    · cases h
    · rename_i h'; injection h with h; subst h; exact readSV_error h'
    · rename_i h' _; injection h with h; subst h; exact readVV_error h'
    · rename_i h' _ _; injection h with h; subst h; exact ih h'

theorem readList_dead {m : Mem} {vs : List (SV × VV)} (h : HasDead m vs) : m.readList vs = .error .dangling := by
  have key : ∀ l, m.readList vs ≠ .ok l := by
    obtain ⟨kv, hkv, hd⟩ := h
    induction vs with
    | nil => cases hkv
    | cons x vs ih =>
      obtain ⟨k, v⟩ := x
      intro l hl
      simp only [Mem.readList] at hl
      split at hl
      · rename_i h1 h2 h3
        rcases List.mem_cons.1 hkv with rfl | hkv
        · rcases hd with ⟨a, b⟩ | ⟨w, a, b, c⟩ | ⟨p, i, a, b⟩
          · rw [readSV_dead a b] at h1; cases h1
          · simp only at a
            subst a
            simp only [Mem.readVV, readSV_dead b c] at h2
            cases h2
          · simp only at a
            subst a
            simp only [Mem.readVV, Mem.readFn, at_dead b] at h2
            cases h2
        · exact ih hkv _ h3
      all_goals cases hl
  cases hr : m.readList vs with
  | ok l => exact absurd hr (key l)
  | error u => rw [readList_error hr]

/-! ## Making storage -/

theorem put_other {h : Heap} {a x : Addr} {b : Option Block} (hx : x ≠ a) : put h a b x = h x := if_neg hx

theorem newStr_spec (lib : Lib) (roomy : Bool) (a : Addr) (t : Str) (h : Heap) :
    RepStr (newStr lib roomy a t h).2 a t (newStr lib roomy a t h).1
    ∧ ∀ x, x ≠ a → (newStr lib roomy a t h).2 x = h x := by
  unfold newStr
  split
  · exact ⟨rfl, fun _ _ => rfl⟩
  · exact ⟨⟨rfl, rfl, by simp [put]⟩, fun x hx => put_other hx⟩

theorem newValue_spec (lib : Lib) (roomy : Bool) (a : Addr) (v : Value) (h : Heap) :
    RepVal (newValue lib roomy a v h).2 a (newValue lib roomy a v h).1 v
    ∧ ∀ x, x ≠ a → (newValue lib roomy a v h).2 x = h x := by
  cases v with
  | string t => exact ⟨.string (newStr_spec lib roomy a t h).1, (newStr_spec lib roomy a t h).2⟩
  | null => exact ⟨.null, fun _ _ => rfl⟩
  | bool b => exact ⟨.bool b, fun _ _ => rfl⟩
  | sint b => exact ⟨.sint b, fun _ _ => rfl⟩
  | uint b => exact ⟨.uint b, fun _ _ => rfl⟩
  | double b => exact ⟨.double b, fun _ _ => rfl⟩
  | function b => exact ⟨.function b, fun _ _ => rfl⟩

theorem newElems_spec (lib : Lib) (n i : Nat) (gs : List Given) (h : Heap) :
    Rep (newElems lib n i gs h).2 n i (newElems lib n i gs h).1 (attributesOf gs)
    ∧ ∀ x : Addr, (x.1 ≠ n ∨ x.2 ≤ 2 * i) → (newElems lib n i gs h).2 x = h x := by
  induction gs generalizing i h with
  | nil => exact ⟨.nil, fun _ _ => rfl⟩
  | cons g gs ih =>
    simp only [newElems]
    obtain ⟨k1, k2⟩ := newStr_spec lib g.roomyKey (n, 2 * i + 1) g.key h
    generalize newStr lib g.roomyKey (n, 2 * i + 1) g.key h = ks at k1 k2 ⊢
    obtain ⟨v1, v2⟩ := newValue_spec lib g.roomyValue (n, 2 * i + 2) g.value ks.2
    generalize newValue lib g.roomyValue (n, 2 * i + 2) g.value ks.2 = vs at v1 v2 ⊢
    obtain ⟨e1, e2⟩ := ih (i + 1) vs.2
    have ne : ∀ x : Addr, (x.1 ≠ n ∨ x.2 ≤ 2 * i) → x ≠ (n, 2 * i + 1) ∧ x ≠ (n, 2 * i + 2) := by
      intro x hx
      constructor
      all_goals
        intro e
        subst e
        rcases hx with hx | hx
        · exact hx rfl
        · simp only at hx; omega
    refine ⟨.cons ?_ ?_ e1, fun x hx => ?_⟩
    · refine k1.frame ?_
      rw [e2 _ (.inr (by simp only; omega)), v2 _ (by simp)]
    · exact v1.frame (e2 _ (.inr (by simp only; omega)))
    · rw [e2 x (hx.imp id fun hx => by omega), v2 _ (ne x hx).2, k2 _ (ne x hx).1]

theorem store_spec (lib : Lib) (n : Nat) (spilled : Bool) (gs : List Given) (h : Heap) :
    ∃ es, (store lib n spilled gs h).1.elems (store lib n spilled gs h).2 = some es
    ∧ Rep (store lib n spilled gs h).2 n 0 es (attributesOf gs)
    ∧ (∀ a, (store lib n spilled gs h).1 = .block a → a = (n, 0))
    ∧ (∀ x : Addr, x.1 ≠ n → (store lib n spilled gs h).2 x = h x)
    ∧ es = (newElems lib n 0 gs h).1 := by
  obtain ⟨e1, e2⟩ := newElems_spec lib n 0 gs h
  unfold store
  simp only
  split
  · exact ⟨_, rfl, e1, (by intro a ha; cases ha), fun x hx => e2 x (.inl hx), rfl⟩
  · refine ⟨_, by simp [Stor.elems, put], ?_, (by intro a ha; injection ha with ha; exact ha.symm), ?_, rfl⟩
    · refine e1.frame fun k hk => put_other ?_
      intro e
      injection e with _ e
      omega
    · intro x hx
      refine (put_other ?_).trans (e2 x (.inl hx))
      intro e
      rw [e] at hx
      exact hx rfl

/-! ## Views of new storage -/

theorem viewOfStr_looks {h : Heap} {a : Addr} {t : Str} {s : SObj} (hr : RepStr h a t s) (p : Place) (i : Nat) (part : Part) :
    LooksStr p i part s t (viewOfStr p i part s) := by
  cases s with
  | short s => cases hr; exact ⟨rfl, .inr rfl⟩
  | long a' n => exact ⟨hr.2.1, .inr rfl⟩

theorem viewOfElems_looks {h : Heap} {b i : Nat} {es : List Elem} {as : Attrs} (hr : Rep h b i es as) (p : Place) :
    Looks p i es as (viewOfElems p i es) := by
  induction hr with
  | nil => exact .nil
  | cons h1 h2 _ ih =>
    refine .cons (viewOfStr_looks h1 p _ _) ?_ ih
    rename_i e _ _ _ _ _
    generalize e.value = o at h2 ⊢
    cases h2 with
    | string h2 => exact .string (viewOfStr_looks h2 p _ _)
    | null => exact .null
    | bool b => exact .bool b
    | sint b => exact .sint b
    | uint b => exact .uint b
    | double b => exact .double b
    | function b => exact .function b

/-! ## Steady storage -/

def SObj.steady : SObj → Bool
  | .short s => s.isEmpty
  | .long _ _ => true

def OV.steady : OV → Bool
  | .string s => s.steady
  | .function _ => false
  | _ => true

def Stor.steady : Stor → Bool
  | .inside es => es.all fun e => e.key.steady && e.value.steady
  | .block _ => true

theorem newStr_steady (lib : Lib) (roomy : Bool) (a : Addr) (t : Str) (h : Heap) :
    (newStr lib roomy a t h).1.steady = steadyText lib roomy t := by
  unfold newStr steadyText
  split
  · rename_i hs
    simp only [SObj.steady, hs.1, Bool.or_false]
    rw [decide_eq_false (Nat.not_lt.2 hs.2), Bool.or_false]
  · rename_i hs
    simp only [SObj.steady]
    cases roomy with
    | true => simp
    | false =>
      have : lib.sso < t.length := by
        simp only [true_and, Nat.not_le] at hs
        exact hs
      simp [this]

theorem newElems_steady (lib : Lib) (n i : Nat) (gs : List Given) (h : Heap) :
    ((newElems lib n i gs h).1.all fun e => e.key.steady && e.value.steady)
    = gs.all fun g => steadyText lib g.roomyKey g.key && steadyValue lib g.roomyValue g.value := by
  induction gs generalizing i h with
  | nil => rfl
  | cons g gs ih =>
    have hv : ∀ h', (newValue lib g.roomyValue (n, 2 * i + 2) g.value h').1.steady
        = steadyValue lib g.roomyValue g.value := by
      intro h'
      cases g.value with
      | string t => exact newStr_steady lib g.roomyValue _ t h'
      | _ => rfl
    simp only [newElems, List.all_cons, newStr_steady, hv, ih]

theorem store_steady (lib : Lib) (n : Nat) (spilled : Bool) (gs : List Given) (h : Heap) :
    (store lib n spilled gs h).1.steady = steady lib spilled gs := by
  unfold store steady
  simp only
  split
  · rename_i hs
    simp only [Stor.steady, newElems_steady, hs.1, Bool.false_or]
    rw [decide_eq_false (by omega), Bool.false_or]
  · rename_i hs
    simp only [Stor.steady]
    cases spilled with
    | true => simp
    | false =>
      simp only [true_and, Nat.not_le] at hs
      simp [hs]

/-- The elements move to another object. -/
theorem Looks.moved {s d i : Nat} {es : List Elem} {as : Attrs} {vs : List (SV × VV)} (h : Looks (.obj s) i es as vs)
    {hp : Heap} {b : Nat} (hr : Rep hp b i es as) (hs : (es.all fun e => e.key.steady && e.value.steady) = true) :
    Looks (.obj d) i es as vs := by
  induction h with
  | nil => exact .nil
  | @cons i e k v kv vv es as vs h1 h2 _ ih =>
    cases hr with
    | cons r1 r2 r3 =>
      simp only [List.all_cons, Bool.and_eq_true] at hs
      obtain ⟨⟨s1, s2⟩, s3⟩ := hs
      have hstr : ∀ {part : Part} {x : SObj} {t : Str} {w : SV} {a : Addr}, RepStr hp a t x → x.steady = true →
          LooksStr (.obj s) i part x t w → LooksStr (.obj d) i part x t w := by
        intro part x t w a r hx hl
        cases x with
        | short x =>
          cases r
          exact ⟨hl.1, .inl (by simpa [SObj.steady] using hx)⟩
        | long a n => exact hl
      refine .cons (hstr r1 s1 h1) ?_ (ih r3 s3)
      generalize e.value = o at h2 r2 s2
      cases h2 with
      | string h2 =>
        cases r2 with
        | string r2 => exact .string (hstr r2 s2 h2)
      | function _ => cases s2
      | null => exact .null
      | bool b => exact .bool b
      | sint b => exact .sint b
      | uint b => exact .uint b
      | double b => exact .double b

/-- Views of strings in elements that are gone. -/
theorem Looks.dead_moved {m : Mem} {p : Place} {i : Nat} {es : List Elem} {as : Attrs} {vs : List (SV × VV)} (h : Looks p i es as vs)
    {hp : Heap} {b : Nat} (hr : Rep hp b i es as) (hs : (es.all fun e => e.key.steady && e.value.steady) = false)
    (hd : DeadP m p) : HasDead m vs := by
  induction h with
  | nil => cases hs
  | @cons i e k v kv vv es as vs h1 h2 _ ih =>
    cases hr with
    | cons r1 r2 r3 =>
      have hstr : ∀ {part : Part} {x : SObj} {t : Str} {w : SV} {a : Addr}, RepStr hp a t x → x.steady = false →
          LooksStr p i part x t w → w.len ≠ 0 ∧ DeadLoc m w.loc := by
        intro part x t w a r hx hl
        cases x with
        | short x =>
          have r : x = t := r
          subst r
          have hne : x ≠ [] := by simpa [SObj.steady] using hx
          rw [hl.2.resolve_left hne, hl.1]
          exact ⟨by cases x with | nil => exact absurd rfl hne | cons _ _ => simp, hd⟩
        | long a n => cases hx
      by_cases s3 : (es.all fun e => e.key.steady && e.value.steady) = false
      · obtain ⟨y, hy, hd⟩ := ih r3 s3
        exact ⟨y, List.mem_cons_of_mem _ hy, hd⟩
      · refine ⟨(kv, vv), List.mem_cons_self, ?_⟩
        have s3 : (es.all fun e => e.key.steady && e.value.steady) = true := by simpa using s3
        simp only [List.all_cons, s3, Bool.and_true, Bool.and_eq_false_iff] at hs
        rcases hs with s1 | s2
        · exact .inl (hstr r1 s1 h1)
        · refine .inr ?_
          generalize e.value = o at h2 r2 s2
          cases h2 with
          | string h2 =>
            cases r2 with
            | string r2 =>
              obtain ⟨a, b⟩ := hstr r2 s2 h2
              exact .inl ⟨_, rfl, a, b⟩
          | function _ => exact .inr ⟨_, _, rfl, hd⟩
          | _ => cases s2

/-! ## Destroying storage -/

theorem freeStr_none {h : Heap} {a : Addr} (s : SObj) (ha : h a = none) : freeStr h s a = none := by
  cases s with
  | short _ => exact ha
  | long b _ => simp only [freeStr, put, ha, ite_self]

theorem freeValue_none {h : Heap} {a : Addr} (v : OV) (ha : h a = none) : freeValue h v a = none := by
  cases v with
  | string s => exact freeStr_none s ha
  | _ => exact ha

theorem freeElems_none {a : Addr} (es : List Elem) {h : Heap} (ha : h a = none) : freeElems h es a = none := by
  induction es generalizing h with
  | nil => exact ha
  | cons e es ih => exact ih (freeValue_none _ (freeStr_none _ ha))

theorem freeStr_other {h hp : Heap} {a x : Addr} {t : Str} {s : SObj} (hr : RepStr hp a t s) (hx : x ≠ a) :
    freeStr h s x = h x := by
  cases s with
  | short _ => rfl
  | long b _ => obtain ⟨rfl, -⟩ := hr; exact put_other hx

theorem freeElems_other {hp : Heap} {b i : Nat} {es : List Elem} {as : Attrs} (hr : Rep hp b i es as) {h : Heap} {x : Addr}
    (hx : x.1 ≠ b) : freeElems h es x = h x := by
  induction hr generalizing h with
  | nil => rfl
  | cons h1 h2 _ ih =>
    have ne : ∀ k, x ≠ (b, k) := by rintro k rfl; exact hx rfl
    simp only [freeElems]
    rw [ih]
    rename_i e _ _ _ _ _
    generalize e.value = o at h2
    cases h2 with
    | string h2 =>
      simp only [freeValue]
      rw [freeStr_other h2 (ne _), freeStr_other h1 (ne _)]
    | _ => exact freeStr_other h1 (ne _)

theorem freeStr_gone {h hp : Heap} {a : Addr} {t : Str} {s : SObj} (hr : RepStr hp a t s) {part : Part} {p : Place} {i : Nat}
    {b : Addr} (hb : (viewOfStr p i part s).loc = .block b) : freeStr h s b = none := by
  cases s with
  | short _ => cases hb
  | long c _ => injection hb with hb; subst hb; simp [freeStr, put]

/-- Views of texts in storage that is gone. -/
theorem Looks.dead_freed {m : Mem} {p : Place} {i : Nat} {es : List Elem} {as : Attrs} {vs : List (SV × VV)}
    (h : Looks p i es as vs) {hp : Heap} {b : Nat} (hr : Rep hp b i es as) (ht : ∃ a ∈ as, HasText a)
    (hd : DeadP m p) (hb : b < m.objs.length) {h0 : Heap} (hheap : ∀ a, freeElems h0 es a = none → m.heap a = none) :
    HasDead m vs := by
  induction h generalizing h0 with
  | nil => obtain ⟨a, ha, -⟩ := ht; cases ha
  | @cons i e k v kv vv es as vs h1 h2 _ ih =>
    cases hr with
    | cons r1 r2 r3 =>
      have hstr : ∀ {part : Part} {x : SObj} {t : Str} {w : SV} {j : Nat} , RepStr hp (b, j) t x → t ≠ [] →
          LooksStr p i part x t w → (∀ c, (viewOfStr p i part x).loc = .block c → m.heap c = none) →
          w.len ≠ 0 ∧ DeadLoc m w.loc := by
        intro part x t w j r ht hl hg
        refine ⟨by rw [hl.1]; cases t with | nil => exact absurd rfl ht | cons _ _ => simp, ?_⟩
        rw [hl.2.resolve_left ht]
        cases x with
        | short x => exact hd
        | long c n =>
          obtain ⟨rfl, -⟩ := r
          exact ⟨hg _ rfl, hb⟩
      have hkey : ∀ c, (viewOfStr p i .key e.key).loc = .block c → m.heap c = none := fun c hc =>
        hheap c (freeElems_none es (freeValue_none _ (freeStr_gone r1 hc)))
      obtain ⟨a, ha, hta⟩ := ht
      rcases List.mem_cons.1 ha with rfl | ha
      · refine ⟨(kv, vv), List.mem_cons_self, ?_⟩
        rcases hta with hk | ⟨t, hv, ht⟩ | ⟨id, hv⟩
        · exact .inl (hstr r1 hk h1 hkey)
        · refine .inr (.inl ?_)
          simp only at hv
          subst hv
          generalize ho : e.value = o at h2 r2
          cases h2 with
          | string h2 =>
            cases r2 with
            | string r2 =>
              obtain ⟨a, b⟩ := hstr r2 ht h2 fun c hc => hheap c (freeElems_none es (by
                rw [ho]; exact freeStr_gone r2 hc))
              exact ⟨_, rfl, a, b⟩
        · refine .inr (.inr ?_)
          simp only at hv
          subst hv
          generalize e.value = o at h2
          cases h2
          exact ⟨_, _, rfl, hd⟩
      · obtain ⟨y, hy, hd⟩ := ih r3 ⟨a, ha, hta⟩ (h0 := freeValue (freeStr h0 e.key) e.value) hheap
        exact ⟨y, List.mem_cons_of_mem _ hy, hd⟩

/-! ## Copying storage -/

theorem textOf_rep {h : Heap} {a : Addr} {t : Str} {s : SObj} (hr : RepStr h a t s) : textOf h s = .ok t := by
  cases s with
  | short _ => cases hr; rfl
  | long b _ => obtain ⟨rfl, -, hh⟩ := hr; simp only [textOf, hh]

theorem contents_rep {h : Heap} {b i : Nat} {es : List Elem} {as : Attrs} (hr : Rep h b i es as) :
    ∃ gs, contents h es = .ok gs ∧ attributesOf gs = as := by
  induction hr with
  | nil => exact ⟨[], rfl, rfl⟩
  | @cons i e k v es as h1 h2 _ ih =>
    obtain ⟨gs, e1, e2⟩ := ih
    have hv : valueOf h e.value = .ok v := by
      generalize e.value = o at h2
      cases h2 with
      | string h2 => simp only [valueOf, textOf_rep h2]
      | _ => rfl
    refine ⟨⟨k, v, false, false⟩ :: gs, ?_, ?_⟩
    · simp only [contents, textOf_rep h1, hv, e1]
    · simp only [attributesOf, List.map_cons] at e2 ⊢
      rw [e2]

end Blackhole.Wrapper
