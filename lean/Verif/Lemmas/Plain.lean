/-
The checked correspondence between the functions of the classes (statements on members) and their meaning (changes of
properties).
-/
import Verif.Spec.Plain
namespace PE.Plain

/-- What one statement makes of the change of member `m` so far. -/
def absStmt (c : Cls) (ps : List MTy) (m : String) (ch : Option Change) : Stmt → Option Change
  | .put m' i =>
    if m = m' then
      match ps[i]?, c.members.lookup m with
      | some (.num p), some (.num w) => if p ≤ w then some (.arg i) else none
      | some .str, some .str => some (.arg i)
      | some .wstr, some .wstr => some (.arg i)
      | _, _ => none
    else ch
  | .putC m' n =>
    if m = m' then
      match c.members.lookup m with
      | some (.num w) => if n < 2 ^ w then some (.const n) else none
      | _ => none
    else ch
  | .putNonEmpty m' i =>
    if m = m' then
      match ps[i]?, c.members.lookup m with
      | some .str, some (.num w) => if 0 < w then some (.nonEmpty i) else none
      | some .wstr, some (.num w) => if 0 < w then some (.nonEmpty i) else none
      | _, _ => none
    else ch
  | .putIf m' i j =>
    if m = m' then
      match ps[i]?, ps[j]?, c.members.lookup m with
      | some (.num _), some (.num p), some (.num w) => if p ≤ w then some (.argIf i j) else none
      | _, _, _ => none
    else ch
  | .strip m' =>
    if m = m' then
      match ch, c.members.lookup m with
      | some (.arg i), some .str => if ps[i]? = some .str then some (.stripped i) else none
      | some (.arg i), some .wstr => if ps[i]? = some .wstr then some (.stripped i) else none
      | _, _ => none
    else ch
  | .clear m' =>
    if m = m' then
      match ch, c.members.lookup m with
      | some .keep, some .str => some .empty
      | some .keep, some .wstr => some .empty
      | some .keep, some .seq => some .empty
      | _, _ => none
    else ch
  | .push m' i =>
    if m = m' then
      match ch, ps[i]?, c.members.lookup m with
      | some .keep, some .elem, some .seq => some (.added i)
      | _, _, _ => none
    else ch

theorem ofTys_get {α} : ∀ {args : List (PVal α)} {ps : List MTy} {i : Nat} {t : MTy}, ofTys args ps → ps[i]? = some t →
    ∃ v, args[i]? = some v ∧ v.ofTy t
  | [], [], i, t, _, h => by simp at h
  | v :: vs, t :: ts, 0, t', h, h' => by
    simp at h'; subst h'; exact ⟨v, rfl, h.1⟩
  | v :: vs, t :: ts, i + 1, t', h, h' => by
    obtain ⟨x, hx, hy⟩ := ofTys_get (i := i) h.2 (by simpa using h')
    exact ⟨x, by simpa using hx, hy⟩
  | [], _ :: _, _, _, h, _ => by simp [ofTys] at h
  | _ :: _, [], _, _, h, _ => by simp [ofTys] at h

theorem store_ofTy {α} {v : PVal α} {t : MTy} (h : v.ofTy t) : store t v = v := by
  cases t <;> cases v <;> simp_all [store, PVal.ofTy, Nat.mod_eq_of_lt]

/-- The value of a member: unchanged, or as the change says and of the type of the member. -/
def Sem {α} (args : List (PVal α)) (o : Option (PVal α)) (old : PVal α) (t : MTy) (ch : Change) (v : Option (PVal α)) : Prop :=
  (ch = .keep ∧ v = o) ∨ (ch ≠ .keep ∧ v = some (ch.apply args old) ∧ (ch.apply args old).ofTy t)

theorem absStmt_sound {α} {c : Cls} {ps : List MTy} {m : String} {args : List (PVal α)} {o0 o : Obj α} {old : PVal α} {t : MTy}
    (hargs : ofTys args ps) (ht : c.members.lookup m = some t)
    (hold : (o0 m = some old ∧ old.ofTy t) ∨ (o0 m = none ∧ ∃ w, t = .num w))
    {ch ch' : Change} (hs : Sem args (o0 m) old t ch (o m)) {s : Stmt} (h : absStmt c ps m (some ch) s = some ch') :
    Sem args (o0 m) old t ch' (c.stmt args o s m) := by
  cases s with
  | put m' i =>
    by_cases hm : m = m'
    · subst hm
      simp only [absStmt, if_true, ht] at h
      have hst : ∀ v, args[i]? = some v → v.ofTy t → ch' = .arg i → Sem args (o0 m) old t ch' (c.stmt args o (.put m i) m) := by
        intro v hv hvt hc
        subst hc
        have : Change.apply args old (.arg i) = v := by simp [Change.apply, List.getD, hv]
        refine .inr ⟨by simp, ?_, by rw [this]; exact hvt⟩
        rw [this]; simp [Cls.stmt, Cls.setM, hv, ht, store_ofTy hvt]
      split at h
      · next p w h1 h2 =>
        obtain ⟨v, hv, hvt⟩ := ofTys_get hargs h1
        injection h2 with h2; subst h2
        split at h
        · next hpw =>
          injection h with h
          refine hst v hv ?_ h.symm
          cases v <;> simp_all [PVal.ofTy]
          exact lt_of_lt_of_le hvt (Nat.pow_le_pow_right (by decide) hpw)
        · simp at h
      · next h1 h2 =>
        obtain ⟨v, hv, hvt⟩ := ofTys_get hargs h1
        injection h2 with h2; subst h2; injection h with h
        exact hst v hv hvt h.symm
      · next h1 h2 =>
        obtain ⟨v, hv, hvt⟩ := ofTys_get hargs h1
        injection h2 with h2; subst h2; injection h with h
        exact hst v hv hvt h.symm
      · simp at h
    · simp only [absStmt, hm, if_false] at h
      injection h with h; subst h
      simpa [Cls.stmt, Cls.setM, hm] using hs
  | putC m' n =>
    by_cases hm : m = m'
    · subst hm
      simp only [absStmt, if_true, ht] at h
      split at h
      · next w h2 =>
        injection h2 with h2; subst h2
        split at h
        · next hn =>
          injection h with h; subst h
          refine .inr ⟨by simp, ?_, hn⟩
          simp [Cls.stmt, Cls.setM, ht, store, Change.apply, Nat.mod_eq_of_lt hn]
        · simp at h
      · simp at h
    · simp only [absStmt, hm, if_false] at h
      injection h with h; subst h
      simpa [Cls.stmt, Cls.setM, hm] using hs
  | putNonEmpty m' i =>
    by_cases hm : m = m'
    · subst hm
      simp only [absStmt, if_true, ht] at h
      have key : ∀ w, t = .num w → 0 < w → ∀ v, args[i]? = some v → (v.ofTy .str ∨ v.ofTy .wstr) → ch' = .nonEmpty i →
          Sem args (o0 m) old t ch' (c.stmt args o (.putNonEmpty m i) m) := by
        intro w hw hpos v hv hvt hc
        subst hc; subst hw
        have h2 : 1 < 2 ^ w := Nat.one_lt_two_pow (by omega)
        cases v with
        | str l => cases l <;> refine .inr ⟨by simp, ?_, ?_⟩ <;>
            simp [Cls.stmt, Cls.setM, hv, ht, store, Change.apply, boolV, isEmptyV, PVal.ofTy, Nat.mod_eq_of_lt h2, h2, Nat.lt_of_succ_lt h2]
        | wstr l => cases l <;> refine .inr ⟨by simp, ?_, ?_⟩ <;>
            simp [Cls.stmt, Cls.setM, hv, ht, store, Change.apply, boolV, isEmptyV, PVal.ofTy, Nat.mod_eq_of_lt h2, h2, Nat.lt_of_succ_lt h2]
        | num n => simp [PVal.ofTy] at hvt
        | seq n => simp [PVal.ofTy] at hvt
        | elem n => simp [PVal.ofTy] at hvt
      split at h
      · next w h1 h2 =>
        obtain ⟨v, hv, hvt⟩ := ofTys_get hargs h1
        injection h2 with h2
        split at h
        · next hw => injection h with h; exact key w h2 hw v hv (.inl hvt) h.symm
        · simp at h
      · next w h1 h2 =>
        obtain ⟨v, hv, hvt⟩ := ofTys_get hargs h1
        injection h2 with h2
        split at h
        · next hw => injection h with h; exact key w h2 hw v hv (.inr hvt) h.symm
        · simp at h
      · simp at h
    · simp only [absStmt, hm, if_false] at h
      injection h with h; subst h
      simpa [Cls.stmt, Cls.setM, hm] using hs
  | putIf m' i j =>
    by_cases hm : m = m'
    · subst hm
      simp only [absStmt, if_true, ht] at h
      split at h
      · next p0 p w h0 h1 h2 =>
        obtain ⟨v, hv, hvt⟩ := ofTys_get hargs h0
        obtain ⟨u, hu, hut⟩ := ofTys_get hargs h1
        injection h2 with h2; subst h2
        split at h
        · next hpw =>
          injection h with h; subst h
          cases v with
          | num n =>
            cases u with
            | num k =>
              have hk : k < 2 ^ w := lt_of_lt_of_le hut (Nat.pow_le_pow_right (by decide) hpw)
              have hw : 0 < 2 ^ w := Nat.two_pow_pos w
              cases n <;> refine .inr ⟨by simp, ?_, ?_⟩ <;>
                simp [Cls.stmt, Cls.setM, hv, hu, ht, store, Change.apply, PVal.ofTy, List.getD, Nat.mod_eq_of_lt hk, hk, hw]
            | _ => simp [PVal.ofTy] at hut
          | _ => simp [PVal.ofTy] at hvt
        · simp at h
      · simp at h
    · simp only [absStmt, hm, if_false] at h
      injection h with h; subst h
      simpa [Cls.stmt, Cls.setM, hm] using hs
  | strip m' =>
    by_cases hm : m = m'
    · subst hm
      simp only [absStmt, if_true, ht] at h
      split at h
      · next i h1 h2 =>
        injection h1 with h1; subst h1
        injection h2 with h2; subst h2
        split at h
        · next hp =>
          injection h with h; subst h
          obtain ⟨v, hv, hvt⟩ := ofTys_get hargs hp
          obtain ⟨hc, -⟩ | ⟨-, hov, -⟩ := hs
          · simp at hc
          cases v with
          | str l =>
            refine .inr ⟨by simp, ?_, ?_⟩
            · simp [Cls.stmt, Cls.setM, hov, ht, store, Change.apply, List.getD, hv, stripV, List.rdropWhile]
            · simp [Change.apply, hv, PVal.ofTy]
          | _ => simp [PVal.ofTy] at hvt
        · simp at h
      · next i h1 h2 =>
        injection h1 with h1; subst h1
        injection h2 with h2; subst h2
        split at h
        · next hp =>
          injection h with h; subst h
          obtain ⟨v, hv, hvt⟩ := ofTys_get hargs hp
          obtain ⟨hc, -⟩ | ⟨-, hov, -⟩ := hs
          · simp at hc
          cases v with
          | wstr l =>
            refine .inr ⟨by simp, ?_, ?_⟩
            · simp [Cls.stmt, Cls.setM, hov, ht, store, Change.apply, List.getD, hv, stripV, List.rdropWhile]
            · simp [Change.apply, hv, PVal.ofTy]
          | _ => simp [PVal.ofTy] at hvt
        · simp at h
      · simp at h
    · simp only [absStmt, hm, if_false] at h
      injection h with h; subst h
      simpa [Cls.stmt, Cls.setM, hm] using hs
  | clear m' =>
    by_cases hm : m = m'
    · subst hm
      simp only [absStmt, if_true, ht] at h
      have key : ch = .keep → (t = .str ∨ t = .wstr ∨ t = .seq) → ch' = .empty →
          Sem args (o0 m) old t ch' (c.stmt args o (.clear m) m) := by
        intro hk htt hc
        subst hc
        obtain ⟨-, hov⟩ | ⟨hc, -⟩ := hs
        · obtain ⟨ho, hot⟩ | ⟨-, w, hw⟩ := hold
          · rw [ho] at hov
            cases old <;> rcases htt with htt | htt | htt <;> subst htt <;> simp [PVal.ofTy] at hot <;>
              refine .inr ⟨by simp, ?_, ?_⟩ <;> simp [Cls.stmt, Cls.setM, hov, ht, store, Change.apply, clearV, PVal.ofTy]
          · rcases htt with h' | h' | h' <;> rw [h'] at hw <;> simp at hw
        · exact absurd hk hc
      split at h
      · next h1 h2 => injection h1 with h1; injection h2 with h2; injection h with h; exact key h1 (.inl h2) h.symm
      · next h1 h2 => injection h1 with h1; injection h2 with h2; injection h with h; exact key h1 (.inr (.inl h2)) h.symm
      · next h1 h2 => injection h1 with h1; injection h2 with h2; injection h with h; exact key h1 (.inr (.inr h2)) h.symm
      · simp at h
    · simp only [absStmt, hm, if_false] at h
      injection h with h; subst h
      simpa [Cls.stmt, Cls.setM, hm] using hs
  | push m' i =>
    by_cases hm : m = m'
    · subst hm
      simp only [absStmt, if_true, ht] at h
      split at h
      · next h1 hp h2 =>
        injection h1 with h1; subst h1
        injection h2 with h2; subst h2
        injection h with h; subst h
        obtain ⟨v, hv, hvt⟩ := ofTys_get hargs hp
        obtain ⟨-, hov⟩ | ⟨hc, -⟩ := hs
        · obtain ⟨ho, hot⟩ | ⟨-, w, hw⟩ := hold
          · rw [ho] at hov
            cases old with
            | seq l =>
              cases v with
              | elem a =>
                refine .inr ⟨by simp, ?_, ?_⟩ <;> simp [Cls.stmt, Cls.setM, hov, hv, ht, store, Change.apply, pushV, PVal.ofTy]
              | _ => simp [PVal.ofTy] at hvt
            | _ => simp [PVal.ofTy] at hot
          · simp at hw
        · exact absurd rfl hc
      · simp at h
    · simp only [absStmt, hm, if_false] at h
      injection h with h; subst h
      simpa [Cls.stmt, Cls.setM, hm] using hs

/-- The change a list of statements makes to member `m`. -/
def absBody (c : Cls) (ps : List MTy) (m : String) (ss : List Stmt) : Option Change :=
  ss.foldlM (fun ch s => absStmt c ps m (some ch) s) .keep

theorem absBody_sound {α} {c : Cls} {ps : List MTy} {m : String} {args : List (PVal α)} {o0 : Obj α} {old : PVal α} {t : MTy}
    (hargs : ofTys args ps) (ht : c.members.lookup m = some t)
    (hold : (o0 m = some old ∧ old.ofTy t) ∨ (o0 m = none ∧ ∃ w, t = .num w)) :
    ∀ (ss : List Stmt) (o : Obj α) {ch ch' : Change}, Sem args (o0 m) old t ch (o m) →
      ss.foldlM (fun ch s => absStmt c ps m (some ch) s) ch = some ch' → Sem args (o0 m) old t ch' (c.exec args ss o m)
  | [], o, ch, ch', hs, h => by
    simp only [List.foldlM_nil] at h
    injection h with h; subst h; exact hs
  | s :: ss, o, ch, ch', hs, h => by
    simp only [List.foldlM_cons] at h
    cases h1 : absStmt c ps m (some ch) s with
    | none => rw [h1] at h; simp at h
    | some ch1 =>
      rw [h1] at h
      exact absBody_sound hargs ht hold ss (c.stmt args o s) (absStmt_sound hargs ht hold hs h1) h

/-- The type of a number. -/
def MTy.isNum : MTy → Bool
  | .num _ => true
  | _ => false

/-- The type of a string or list. -/
def MTy.isSeq : MTy → Bool
  | .str | .wstr | .seq => true
  | _ => false

/-- Does the getter tell what it should? -/
def howOk (t rty : MTy) : How → Tells → Bool
  | .same, .value => decide (t = rty)
  | .size, .length => decide (t = .seq ∧ rty = .num 64)
  | .nonEmpty, .nonEmpty => decide ((t = .str ∨ t = .wstr) ∧ rty = .num 1)
  | .isNum n, .equals k => decide (n = k ∧ rty = .num 1) && t.isNum
  | .mask n, .bit k => decide (n = 2 ^ k ∧ rty = .num 1) && t.isNum
  | .nonZero, .nonZero => decide (rty = .num 1) && t.isNum
  | _, _ => false

theorem and_pow_ne (k b : Nat) : (k &&& 2 ^ b != 0) = k.testBit b := by
  cases h : k.testBit b
  · have : k &&& 2 ^ b = 0 := by
      refine Nat.eq_of_testBit_eq fun i => ?_
      by_cases hi : b = i
      · subst hi; simp [h]
      · simp [hi]
    simp [this]
  · have : k &&& 2 ^ b ≠ 0 := by
      intro h0
      have := congrArg (fun x => Nat.testBit x b) h0
      simp [h] at this
    simpa using this

theorem howOk_sound {α} {t rty : MTy} {h : How} {e : Tells} (hk : howOk t rty h e = true) {v : PVal α} (hv : v.ofTy t) :
    store rty (h.eval v) = e.of v := by
  cases h <;> cases e <;> simp only [howOk, Bool.and_eq_true, decide_eq_true_eq, Bool.false_eq_true] at hk
  · subst hk; exact store_ofTy hv
  · obtain ⟨rfl, rfl⟩ := hk
    cases v <;> simp_all [PVal.ofTy, How.eval, store, Tells.of]
  · obtain ⟨ht, rfl⟩ := hk
    cases v with
    | str l => cases l <;> simp [How.eval, store, Tells.of, boolV, isEmptyV]
    | wstr l => cases l <;> simp [How.eval, store, Tells.of, boolV, isEmptyV]
    | _ => rcases ht with rfl | rfl <;> simp [PVal.ofTy] at hv
  · obtain ⟨⟨rfl, rfl⟩, ht⟩ := hk
    cases v with
    | num k => simp only [How.eval, store, Tells.of, boolV, beq_iff_eq]; split <;> rfl
    | _ => cases t <;> simp_all [PVal.ofTy, MTy.isNum]
  · obtain ⟨⟨rfl, rfl⟩, ht⟩ := hk
    cases v with
    | num k =>
      simp only [How.eval, store, Tells.of, boolV, and_pow_ne]
      cases k.testBit _ <;> rfl
    | _ => cases t <;> simp_all [PVal.ofTy, MTy.isNum]
  · obtain ⟨rfl, ht⟩ := hk
    cases v with
    | num k => by_cases hh : k = 0 <;> simp [How.eval, store, Tells.of, boolV, hh]
    | _ => cases t <;> simp_all [PVal.ofTy, MTy.isNum]

/-- Does a constructor's effect `a` on a member of type `t` give the property the value it should have, which is `b` if the
    constructor is to set it and its initial value otherwise? -/
def ctorOk (d : Decl) (p : String) (t : MTy) : Option Change → Change → Bool
  | some .keep, .keep => t.isSeq
  | some (.const n), .keep => t.isNum && decide (n = d.initialNum p)
  | some a, b => decide (a = b) && decide (a ≠ .keep)
  | none, _ => false

/-- The part of the check for one getter `(fn, rty)`: found in the class, right kind, and every constructor and every function
    that changes the object changes the member as the property should change. -/
def getterOk (d : Decl) (c : Cls) (g : String × MTy) : Bool :=
  match c.getters.find? fun x => x.1 = g.1 with
  | none => false
  | some x =>
    match c.members.lookup x.2.2.1 with
    | none => false
    | some t =>
      decide (x.2.1 = g.2) && howOk t g.2 x.2.2.2 (getterOf d.name g.1).2 &&
      (decide (d.propTy (getterOf d.name g.1).1 = some t) && decide (t ≠ .elem)) &&
      (d.ctors.all fun ps =>
        match c.ctors.find? fun k => k.params.map (·.2) = ps.map (·.2) with
        | none => false
        | some k => ctorOk d (getterOf d.name g.1).1 t (absBody c (ps.map (·.2)) x.2.2.1 k.body)
            (((ctorOf d.name ps).lookup (getterOf d.name g.1).1).getD .keep)) &&
      (d.setters.all fun s =>
        match c.setters.find? fun y => y.1 = s.1 && y.2.1 = s.2 with
        | none => false
        | some y => decide (absBody c s.2 x.2.2.1 y.2.2 =
            some (((setterOf d.name s.1 s.2).lookup (getterOf d.name g.1).1).getD .keep)))

/-- The class does what its declaration promises, as far as it can be checked function by function. -/
def agrees (d : Decl) (c : Cls) : Bool :=
  decide (d.name = c.name) && (d.getters.all fun g => getterOk d c g) &&
  (d.ctors.all fun ps => (c.ctors.find? fun k => k.params.map (·.2) = ps.map (·.2)).isSome) &&
  (d.setters.all fun s => (c.setters.find? fun y => y.1 = s.1 && y.2.1 = s.2).isSome)

/-- The relation between object and properties: every getter's member has the value of the property, of its type. -/
def Rel {α} (d : Decl) (c : Cls) (o : Obj α) (s : Props α) : Prop :=
  ∀ g ∈ d.getters, ∃ x t, (c.getters.find? fun x => x.1 = g.1) = some x ∧ c.members.lookup x.2.2.1 = some t ∧
    o x.2.2.1 = some (s (getterOf d.name g.1).1) ∧ (s (getterOf d.name g.1).1).ofTy t

theorem ctorOk_cases {d : Decl} {p : String} {t : MTy} {a : Option Change} {b : Change} (h : ctorOk d p t a b = true) :
    (a = some .keep ∧ b = .keep ∧ t.isSeq = true) ∨
    (a = some (.const (d.initialNum p)) ∧ b = .keep ∧ t.isNum = true) ∨ (a = some b ∧ b ≠ .keep) := by
  unfold ctorOk at h
  split at h
  · exact .inl ⟨rfl, rfl, h⟩
  · simp only [Bool.and_eq_true, decide_eq_true_eq] at h
    obtain ⟨h1, h2⟩ := h
    subst h2
    exact .inr (.inl ⟨rfl, rfl, h1⟩)
  · simp only [Bool.and_eq_true, decide_eq_true_eq] at h
    obtain ⟨h1, h2⟩ := h
    subst h1
    exact .inr (.inr ⟨rfl, h2⟩)
  · simp at h

theorem rel_new {α} {d : Decl} {c : Cls} (h : agrees d c = true) {ps : List (String × MTy)} (hps : ps ∈ d.ctors)
    {args : List (PVal α)} (ha : ofTys args (ps.map (·.2))) :
    ∃ o, c.new (ps.map (·.2)) args = some o ∧ Rel d c o (applyChanges (ctorOf d.name ps) args d.initial) := by
  simp only [agrees, Bool.and_eq_true, List.all_eq_true] at h
  obtain ⟨⟨⟨-, hg⟩, hk⟩, -⟩ := h
  obtain ⟨k, hk⟩ := Option.isSome_iff_exists.1 (hk ps hps)
  refine ⟨c.exec args k.body c.raw, by simp only [Cls.new, hk, Option.map_some], fun g hgd => ?_⟩
  have hG := hg g hgd
  unfold getterOk at hG
  split at hG
  · simp at hG
  next x hx =>
  split at hG
  · simp at hG
  next t ht =>
  simp only [Bool.and_eq_true, List.all_eq_true, decide_eq_true_eq] at hG
  have hC := hG.1.2 ps hps
  rw [hk] at hC
  obtain ⟨hpt, hne⟩ := hG.1.1.2
  refine ⟨x, t, hx, ht, ?_⟩
  generalize (getterOf d.name g.1).1 = p at hC hpt ⊢
  have hraw : ((c.raw x.2.2.1 : Option (PVal α)) = some (d.initial p) ∧ (d.initial p : PVal α).ofTy t) ∨
      ((c.raw x.2.2.1 : Option (PVal α)) = none ∧ ∃ w, t = .num w) := by
    cases t with
    | num w => exact .inr ⟨by simp [Cls.raw, ht], w, rfl⟩
    | elem => exact absurd rfl hne
    | _ => exact .inl ⟨by simp [Cls.raw, ht, Decl.initial, hpt], by simp [Decl.initial, hpt, PVal.ofTy]⟩
  simp only [applyChanges]
  generalize hb : ((ctorOf d.name ps).lookup p).getD .keep = b at hC ⊢
  obtain ⟨h1, rfl, h3⟩ | ⟨h1, rfl, h3⟩ | ⟨h1, h2⟩ := ctorOk_cases hC
  · obtain ⟨-, hv⟩ | ⟨hv, -⟩ := absBody_sound ha ht hraw k.body c.raw (.inl ⟨rfl, rfl⟩) h1
    · obtain ⟨hr, hr'⟩ | ⟨-, w, hw⟩ := hraw
      · rw [hv, hr]; exact ⟨rfl, hr'⟩
      · rw [hw] at h3; simp [MTy.isSeq] at h3
    · exact absurd rfl hv
  · obtain ⟨hv, -⟩ | ⟨-, hv, hv'⟩ := absBody_sound ha ht hraw k.body c.raw (.inl ⟨rfl, rfl⟩) h1
    · simp at hv
    · have : (d.initial p : PVal α) = .num (d.initialNum p) := by
        cases t <;> simp_all [MTy.isNum, Decl.initial]
      rw [hv]
      simp only [Change.apply, this] at hv' ⊢
      exact ⟨trivial, hv'⟩
  · obtain ⟨hv, -⟩ | ⟨-, hv, hv'⟩ := absBody_sound ha ht hraw k.body c.raw (.inl ⟨rfl, rfl⟩) h1
    · exact absurd hv h2
    · exact ⟨hv, hv'⟩

theorem rel_call {α} {d : Decl} {c : Cls} (h : agrees d c = true) {fn : String} {tys : List MTy} (hs : (fn, tys) ∈ d.setters)
    {args : List (PVal α)} (ha : ofTys args tys) {o : Obj α} {s : Props α} (hr : Rel d c o s) :
    ∃ o', c.call fn tys args o = some o' ∧ Rel d c o' (applyChanges (setterOf d.name fn tys) args s) := by
  simp only [agrees, Bool.and_eq_true, List.all_eq_true] at h
  obtain ⟨⟨⟨-, hg⟩, -⟩, hk⟩ := h
  obtain ⟨y, hy⟩ := Option.isSome_iff_exists.1 (hk _ hs)
  refine ⟨c.exec args y.2.2 o, by simp only [Cls.call, hy, Option.map_some], fun g hgd => ?_⟩
  have hG := hg g hgd
  obtain ⟨x, t, hx, ht, hov, hot⟩ := hr g hgd
  refine ⟨x, t, hx, ht, ?_⟩
  unfold getterOk at hG
  rw [hx] at hG
  dsimp only at hG
  rw [ht] at hG
  simp only [Bool.and_eq_true, List.all_eq_true] at hG
  have hC := hG.2 _ hs
  rw [hy] at hC
  simp only [decide_eq_true_eq] at hC
  simp only [applyChanges]
  generalize ((setterOf d.name fn tys).lookup (getterOf d.name g.1).1).getD .keep = b at hC ⊢
  obtain ⟨rfl, hv⟩ | ⟨-, hv, hv'⟩ := absBody_sound ha ht (.inl ⟨hov, hot⟩) y.2.2 o (.inl ⟨rfl, rfl⟩) hC
  · rw [hv, hov]; exact ⟨rfl, hot⟩
  · exact ⟨hv, hv'⟩

theorem rel_get {α} {d : Decl} {c : Cls} (h : agrees d c = true) {o : Obj α} {s : Props α} (hr : Rel d c o s)
    {g : String × MTy} (hgd : g ∈ d.getters) :
    c.get g.1 o = some (.ok ((getterOf d.name g.1).2.of (s (getterOf d.name g.1).1))) := by
  simp only [agrees, Bool.and_eq_true, List.all_eq_true] at h
  have hG := h.1.1.2 g hgd
  obtain ⟨x, t, hx, ht, hov, hot⟩ := hr g hgd
  unfold getterOk at hG
  rw [hx] at hG
  dsimp only at hG
  rw [ht] at hG
  simp only [Bool.and_eq_true, List.all_eq_true, decide_eq_true_eq] at hG
  obtain ⟨⟨⟨⟨hty, hhow⟩, -⟩, -⟩, -⟩ := hG
  simp only [Cls.get, hx, Option.map_some, hov, hty]
  rw [howOk_sound hhow hot]

end PE.Plain
