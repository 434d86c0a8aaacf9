/-
Helper lemmas for the import directory.
-/
import Verif.Spec.Imports
import Verif.Lemmas.Mod
import Verif.Lemmas.Header

namespace PE

/-! ### The layout -/

/-- The strings of the functions. -/
def fnStr (f : ImportFn) : Bytes := if f.name = [] then [] else leBytes 2 f.hint ++ (f.name ++ [0])

def fnStrs : List ImportFn → Bytes
  | [] => []
  | f :: fs => fnStr f ++ fnStrs fs

/-- The lookup value of a function whose string stands at `ps`. -/
def lookVal (ptr va ps : Nat) (f : ImportFn) : Nat := if f.name = [] then f.ordinal ||| 2 ^ (8 * ptr - 1) else va + ps

/-- The IAT value. -/
def iatVal (ptr : Nat) (b : Bool) (va ps : Nat) (f : ImportFn) : Nat := if b then f.iatVa else lookVal ptr va ps f

def lookBytes (ptr va : Nat) : Nat → List ImportFn → Bytes
  | _, [] => []
  | ps, f :: fs => leBytes ptr (lookVal ptr va ps f) ++ lookBytes ptr va (ps + (fnStr f).length) fs

def iatBytes (ptr : Nat) (b : Bool) (va : Nat) : Nat → List ImportFn → Bytes
  | _, [] => []
  | ps, f :: fs => leBytes ptr (iatVal ptr b va ps f) ++ iatBytes ptr b va (ps + (fnStr f).length) fs

theorem lookBytes_length (ptr va ps : Nat) (fs : List ImportFn) : (lookBytes ptr va ps fs).length = ptr * fs.length := by
  induction fs generalizing ps with
  | nil => rfl
  | cons f fs ih => simp only [lookBytes, List.length_append, leBytes_length, ih, List.length_cons, Nat.mul_add]; omega

theorem iatBytes_length (ptr : Nat) (b : Bool) (va ps : Nat) (fs : List ImportFn) :
    (iatBytes ptr b va ps fs).length = ptr * fs.length := by
  induction fs generalizing ps with
  | nil => rfl
  | cons f fs ih => simp only [iatBytes, List.length_append, leBytes_length, ih, List.length_cons, Nat.mul_add]; omega

/-- The bytes `x`, if wanted. -/
def opt (b : Bool) (x : Bytes) : Bytes := if b then x else []

theorem opt_length (b : Bool) (x : Bytes) : (opt b x).length = if b then x.length else 0 := by cases b <;> rfl

theorem opt_append (b : Bool) (x y : Bytes) : opt b (x ++ y) = opt b x ++ opt b y := by cases b <;> rfl

theorem at_nil {d : Bytes} {o : Nat} (h : o ≤ d.length) : At d o [] := ⟨by simpa using h, rfl⟩

/-! ### Writing -/

/-- The image with other raw data of section `i`. -/
def Image.withData (p : Image) (i : Nat) (s : Sec) (d : Bytes) : Image := { p with secs := p.secs.set i { s with data := d } }

theorem rawPut_withData {p : Image} {i : Nat} {s : Sec} {d d' : Bytes} (hi : i < p.secs.length) {pos : Nat} {x : Bytes}
    (h : writeAt d pos x = .ok d') : (p.withData i s d).rawPut i pos x = .ok (p.withData i s d') := by
  unfold Image.rawPut Image.writeLoc Image.withData
  simp only [List.getElem?_set_self hi, h, ok_bind, List.set_set]

theorem putIat_spec {p : Image} {i : Nat} {s : Sec} {d : Bytes} (hi : i < p.secs.length) {pl : ImportPlan} {ps pi po ft oft : Nat}
    (hr : pl.rewIat = false) (h : pi + p.kind.ptr ≤ d.length) (hd : d.length < 2 ^ 32) (v : Nat) :
    ∃ d', ImportSt.putIat { img := p.withData i s d, str := ps, iat := pi, orig := po, ft := ft, oft := oft } i pl true v =
        .ok { img := p.withData i s d', str := ps, iat := pi + p.kind.ptr, orig := po, ft := ft, oft := oft } ∧
      At d' pi (leBytes p.kind.ptr v) ∧ Mod d d' (fun j => pi ≤ j ∧ j < pi + p.kind.ptr) := by
  obtain ⟨d', e, a, m⟩ := writeAt_mod (b := d) (o := pi) (x := leBytes p.kind.ptr v) (by rw [leBytes_length]; exact h)
  rw [leBytes_length] at m
  refine ⟨d', ?_, a, m⟩
  unfold ImportSt.putIat
  rw [hr]
  simp only [Bool.false_eq_true, if_false, if_true]
  rw [show (p.withData i s d).kind.ptr = p.kind.ptr from rfl, rawPut_withData hi e, ok_bind, w32, Nat.mod_eq_of_lt (by omega)]

theorem putOrig_spec {p : Image} {i : Nat} {s : Sec} {d : Bytes} (hi : i < p.secs.length) {pl : ImportPlan} {ps pi po ft oft : Nat}
    (hr : pl.rewOrig = false) (h : po + p.kind.ptr ≤ d.length) (hd : d.length < 2 ^ 32) (v : Nat) :
    ∃ d', ImportSt.putOrig { img := p.withData i s d, str := ps, iat := pi, orig := po, ft := ft, oft := oft } i pl v =
        .ok { img := p.withData i s d', str := ps, iat := pi, orig := po + p.kind.ptr, ft := ft, oft := oft } ∧
      At d' po (leBytes p.kind.ptr v) ∧ Mod d d' (fun j => po ≤ j ∧ j < po + p.kind.ptr) := by
  obtain ⟨d', e, a, m⟩ := writeAt_mod (b := d) (o := po) (x := leBytes p.kind.ptr v) (by rw [leBytes_length]; exact h)
  rw [leBytes_length] at m
  refine ⟨d', ?_, a, m⟩
  unfold ImportSt.putOrig
  rw [hr]
  simp only [Bool.false_eq_true, if_false]
  rw [show (p.withData i s d).kind.ptr = p.kind.ptr from rfl, rawPut_withData hi e, ok_bind, w32, Nat.mod_eq_of_lt (by omega)]

/-- The kinds of plans without rewriting: new tables with (`b`) or without lookup table, kept tables. -/
structure PlainPlan (pl : ImportPlan) (w b : Bool) : Prop where
  rewIat : pl.rewIat = false
  rewOrig : pl.rewOrig = false
  saved : pl.saved = !w
  writeOrig : pl.writeOrig = b
  imp : b = true → w = true

/-- The optional write of an IAT value. -/
theorem iatStep {p : Image} {i : Nat} {s : Sec} {d : Bytes} (hi : i < p.secs.length) {pl : ImportPlan} {w b : Bool}
    (hp : PlainPlan pl w b) {ps pi po ft oft : Nat} (h : pi + (if w then p.kind.ptr else 0) ≤ d.length) (hd : d.length < 2 ^ 32)
    (f : ImportFn) (v : Nat) (hf : w = true → b = false → f.name ≠ []) :
    ∃ d', ImportSt.fnIat { img := p.withData i s d, str := ps, iat := pi, orig := po, ft := ft, oft := oft } i pl f v =
        (.ok { img := p.withData i s d', str := ps, iat := pi + (if w then p.kind.ptr else 0), orig := po, ft := ft, oft := oft } : Res ImportSt) ∧
      At d' pi (opt w (leBytes p.kind.ptr (if b then f.iatVa else v))) ∧
      Mod d d' (fun j => pi ≤ j ∧ j < pi + (if w then p.kind.ptr else 0)) := by
  unfold ImportSt.fnIat
  rw [hp.saved, hp.writeOrig]
  cases w with
  | false =>
    refine ⟨d, rfl, at_nil (by simpa using h), Mod.refl _ _⟩
  | true =>
    simp only [if_true, Bool.not_true, Bool.false_eq_true, if_false] at h ⊢
    cases b with
    | true =>
      simp only [if_true]
      exact putIat_spec hi hp.rewIat h hd _
    | false =>
      simp only [Bool.false_eq_true, if_false]
      rw [decide_eq_true (hf rfl rfl)]
      exact putIat_spec hi hp.rewIat h hd _

theorem origStep {p : Image} {i : Nat} {s : Sec} {d : Bytes} (hi : i < p.secs.length) {pl : ImportPlan} {w b : Bool}
    (hp : PlainPlan pl w b) {ps pi po ft oft : Nat} (h : po + (if b then p.kind.ptr else 0) ≤ d.length) (hd : d.length < 2 ^ 32)
    (v : Nat) :
    ∃ d', ImportSt.fnOrig { img := p.withData i s d, str := ps, iat := pi, orig := po, ft := ft, oft := oft } i pl v =
        (.ok { img := p.withData i s d', str := ps, iat := pi, orig := po + (if b then p.kind.ptr else 0), ft := ft, oft := oft } : Res ImportSt) ∧
      At d' po (opt b (leBytes p.kind.ptr v)) ∧ Mod d d' (fun j => po ≤ j ∧ j < po + (if b then p.kind.ptr else 0)) := by
  unfold ImportSt.fnOrig
  rw [hp.writeOrig]
  cases b with
  | false => exact ⟨d, rfl, at_nil (by simpa using h), Mod.refl _ _⟩
  | true =>
    simp only [if_true] at h ⊢
    exact putOrig_spec hi hp.rewOrig h hd _

theorem fnStr_length (f : ImportFn) : (fnStr f).length = if f.name = [] then 0 else f.name.length + 3 := by
  unfold fnStr
  split
  · rfl
  · simp only [List.length_append, leBytes_length, List.length_singleton]; omega

/-- One function. -/
theorem putFn_spec {p : Image} {i va : Nat} {s : Sec} {d : Bytes} (hi : i < p.secs.length) {pl : ImportPlan} {w b : Bool}
    (hp : PlainPlan pl w b) {ps pi po ft oft : Nat} (hva : va + d.length < 2 ^ 32) (f : ImportFn)
    (h1 : ps + (fnStr f).length ≤ pi) (h2 : pi + (if w then p.kind.ptr else 0) ≤ po)
    (h3 : po + (if b then p.kind.ptr else 0) ≤ d.length) (hf : w = true → b = false → f.name ≠ []) :
    ∃ d', ImportSt.putFn { img := p.withData i s d, str := ps, iat := pi, orig := po, ft := ft, oft := oft } i va pl f =
        .ok { img := p.withData i s d', str := ps + (fnStr f).length, iat := pi + (if w then p.kind.ptr else 0),
              orig := po + (if b then p.kind.ptr else 0), ft := ft, oft := oft } ∧
      At d' ps (fnStr f) ∧ At d' pi (opt w (leBytes p.kind.ptr (iatVal p.kind.ptr b va ps f))) ∧
      At d' po (opt b (leBytes p.kind.ptr (lookVal p.kind.ptr va ps f))) ∧
      Mod d d' (fun j => (ps ≤ j ∧ j < ps + (fnStr f).length) ∨ (pi ≤ j ∧ j < pi + (if w then p.kind.ptr else 0)) ∨
        (po ≤ j ∧ j < po + (if b then p.kind.ptr else 0))) := by
  have hv : (if f.name ≠ [] then w32 (va + ps) else f.ordinal ||| 2 ^ (8 * p.kind.ptr - 1)) = lookVal p.kind.ptr va ps f := by
    unfold lookVal
    by_cases hn : f.name = []
    · rw [if_neg (by simp [hn]), if_pos hn]
    · rw [if_pos hn, if_neg hn, w32, Nat.mod_eq_of_lt (by omega)]
  obtain ⟨d1, e1, a1, m1⟩ := iatStep (s := s) (d := d) hi hp (ps := ps) (pi := pi) (po := po) (ft := ft) (oft := oft) (by omega) (by omega) f
    (lookVal p.kind.ptr va ps f) hf
  have l1 := m1.len
  obtain ⟨d2, e2, a2, m2⟩ := origStep (s := s) (d := d1) hi hp (ps := ps) (pi := pi + (if w then p.kind.ptr else 0)) (po := po) (ft := ft)
    (oft := oft) (by omega) (by omega) (lookVal p.kind.ptr va ps f)
  have l2 := m2.len
  unfold ImportSt.putFn
  dsimp only
  rw [show (p.withData i s d).kind.ptr = p.kind.ptr from rfl, hv, e1, ok_bind, e2, ok_bind]
  have hfl := fnStr_length f
  by_cases hn : f.name = []
  · rw [if_neg (by simp [hn])]
    have hz : fnStr f = [] := by unfold fnStr; rw [if_pos hn]
    rw [hz]
    refine ⟨d2, rfl, at_nil (by omega), ?_, a2, ?_⟩
    · refine m2.at a1 ?_
      rw [opt_length, leBytes_length]
      intro j _ _; omega
    · exact Mod.mono (m1.trans m2) (fun j hj => by omega)
  · rw [if_pos hn]
    rw [if_neg hn] at hfl
    have hs : fnStr f = leBytes 2 f.hint ++ (f.name ++ [0]) := by unfold fnStr; rw [if_neg hn]
    obtain ⟨d3, e3, a3, m3⟩ := writeAt_mod (b := d2) (o := ps) (x := leBytes 2 f.hint) (by rw [leBytes_length]; omega)
    obtain ⟨d4, e4, a4, m4⟩ := writeAt_mod (b := d3) (o := ps + 2) (x := f.name ++ [0]) (by
      rw [m3.len]; simp only [List.length_append, List.length_singleton]; omega)
    simp only [List.length_append, List.length_singleton, leBytes_length] at m3 m4
    have l3 := m3.len
    have l4 := m4.len
    rw [rawPut_withData hi e3, ok_bind, show w32 (ps + 2) = ps + 2 by rw [w32, Nat.mod_eq_of_lt (by omega)],
      rawPut_withData hi e4, ok_bind,
      show w32 (ps + (f.name.length + 1 + 2)) = ps + (fnStr f).length by rw [w32, Nat.mod_eq_of_lt (by omega)]; omega]
    refine ⟨d4, rfl, ?_, ?_, ?_, ?_⟩
    · rw [hs]
      refine at_append (m4.at a3 ?_) (by rw [leBytes_length]; exact a4)
      rw [leBytes_length]; intro j _ _; omega
    · refine m4.at (m3.at (m2.at a1 ?_) ?_) ?_ <;> rw [opt_length, leBytes_length] <;> intro j _ _ <;> omega
    · refine m4.at (m3.at a2 ?_) ?_ <;> rw [opt_length, leBytes_length] <;> intro j _ _ <;> omega
    · exact Mod.mono (((m1.trans m2).trans m3).trans m4) (fun j hj => by omega)

/-- All functions of a library. -/
theorem putFns_spec {p : Image} {i va : Nat} {s : Sec} (hi : i < p.secs.length) {pl : ImportPlan} {w b : Bool}
    (hp : PlainPlan pl w b) (ft oft : Nat) : ∀ (fs : List ImportFn) (d : Bytes) (ps pi po : Nat), va + d.length < 2 ^ 32 →
    ps + (fnStrs fs).length ≤ pi → pi + (if w then p.kind.ptr else 0) * fs.length ≤ po →
    po + (if b then p.kind.ptr else 0) * fs.length ≤ d.length → (w = true → b = false → ∀ f ∈ fs, f.name ≠ []) →
    ∃ d', ImportSt.putFns { img := p.withData i s d, str := ps, iat := pi, orig := po, ft := ft, oft := oft } i va pl fs =
        .ok { img := p.withData i s d', str := ps + (fnStrs fs).length, iat := pi + (if w then p.kind.ptr else 0) * fs.length,
              orig := po + (if b then p.kind.ptr else 0) * fs.length, ft := ft, oft := oft } ∧
      At d' ps (fnStrs fs) ∧ At d' pi (opt w (iatBytes p.kind.ptr b va ps fs)) ∧
      At d' po (opt b (lookBytes p.kind.ptr va ps fs)) ∧
      Mod d d' (fun j => (ps ≤ j ∧ j < ps + (fnStrs fs).length) ∨ (pi ≤ j ∧ j < pi + (if w then p.kind.ptr else 0) * fs.length) ∨
        (po ≤ j ∧ j < po + (if b then p.kind.ptr else 0) * fs.length)) := by
  intro fs
  have hwl : ∀ x : Nat, (opt w (leBytes p.kind.ptr x)).length = if w then p.kind.ptr else 0 := fun x => by
    rw [opt_length, leBytes_length]
  have hbl : ∀ x : Nat, (opt b (leBytes p.kind.ptr x)).length = if b then p.kind.ptr else 0 := fun x => by
    rw [opt_length, leBytes_length]
  induction fs with
  | nil =>
    intro d ps pi po h0 h1 h2 h3 _
    simp only [fnStrs, List.length_nil, Nat.mul_zero, Nat.add_zero] at h1 h2 h3
    refine ⟨d, rfl, at_nil (by omega), ?_, ?_, Mod.refl _ _⟩
    · cases w <;> exact at_nil (by omega)
    · cases b <;> exact at_nil (by omega)
  | cons f fs ih =>
    intro d ps pi po h0 h1 h2 h3 h4
    simp only [fnStrs, List.length_append, List.length_cons, Nat.mul_add, Nat.mul_one] at h1 h2 h3 ⊢
    obtain ⟨d1, e1, a1, a2, a3, m1⟩ := putFn_spec (va := va) (s := s) (d := d) hi hp (ps := ps) (pi := pi) (po := po) (ft := ft) (oft := oft) h0 f
      (by omega) (by omega) (by omega) (fun x y => h4 x y f List.mem_cons_self)
    have l1 := m1.len
    obtain ⟨d2, e2, b1, b2, b3, m2⟩ := ih d1 (ps + (fnStr f).length) (pi + (if w then p.kind.ptr else 0))
      (po + (if b then p.kind.ptr else 0)) (by omega) (by omega) (by omega) (by omega)
      (fun x y g hg => h4 x y g (List.mem_cons_of_mem _ hg))
    generalize hW : (if w then p.kind.ptr else 0) = W at *
    generalize hB : (if b then p.kind.ptr else 0) = B at *
    generalize hWF : W * fs.length = WF at *
    generalize hBF : B * fs.length = BF at *
    refine ⟨d2, ?_, ?_, ?_, ?_, ?_⟩
    · rw [ImportSt.putFns, e1, ok_bind, e2]
      refine congrArg Except.ok ?_
      simp only [ImportSt.mk.injEq, true_and, and_true]
      omega
    · refine at_append (m2.at a1 ?_) b1
      intro j _ _; omega
    · rw [iatBytes, opt_append]
      refine at_append (m2.at a2 ?_) (by rw [hwl]; exact b2)
      rw [hwl]; intro j _ _; omega
    · rw [lookBytes, opt_append]
      refine at_append (m2.at a3 ?_) (by rw [hbl]; exact b3)
      rw [hbl]; intro j _ _; omega
    · exact Mod.mono (m1.trans m2) (fun j hj => by omega)

/-! ### Libraries -/

/-- The tables of the library are written anew. -/
def libW (c : ImportCfg) (l : ImportLib) : Bool := !(c.save && decide (l.rvaIat ≠ 0))

/-- It gets a lookup table. -/
def libB (c : ImportCfg) (l : ImportLib) : Bool := libW c l && c.buildOrig

theorem libW_iff (c : ImportCfg) (l : ImportLib) : libW c l = true ↔ ¬ l.Kept c.save := by
  unfold libW ImportLib.Kept
  cases c.save <;> simp

/-- The table addresses in the descriptor. -/
def libOft (c : ImportCfg) (va po : Nat) (l : ImportLib) : Nat :=
  if c.buildOrig then (if libW c l then va + po else l.rvaOrig) else 0
def libFt (c : ImportCfg) (va pi : Nat) (l : ImportLib) : Nat := if libW c l then va + pi else l.rvaIat

theorem plan_plain {c : ImportCfg} (hf : c.fill = false) (hr : c.rewrite = false) {va pi po : Nat} (l : ImportLib)
    (h1 : va + pi < 2 ^ 32) (h2 : va + po < 2 ^ 32) :
    PlainPlan (importPlan c va pi po l) (libW c l) (libB c l) ∧ (importPlan c va pi po l).oft = libOft c va po l ∧
      (importPlan c va pi po l).ft = libFt c va pi l := by
  have w1 : w32 (va + pi) = va + pi := by rw [w32, Nat.mod_eq_of_lt (by omega)]
  have w2 : w32 (va + po) = va + po := by rw [w32, Nat.mod_eq_of_lt (by omega)]
  obtain ⟨cb, cs, cf, cr⟩ := c
  subst hf hr
  unfold importPlan libB libOft libFt libW
  dsimp only
  by_cases hk : l.rvaIat = 0 <;> cases cs <;> cases cb <;> simp [hk, w1, w2] <;> constructor <;> simp

/-- The strings of a library and of all libraries. -/
def libStr (l : ImportLib) : Bytes := (l.name ++ [0]) ++ fnStrs l.funcs
def libStrs : List ImportLib → Bytes
  | [] => []
  | l :: ls => libStr l ++ libStrs ls

/-- The tables of a library with their final thunks. -/
def libIat (c : ImportCfg) (ptr va ps : Nat) (l : ImportLib) : Bytes :=
  opt (libW c l) (iatBytes ptr (libB c l) va (ps + (l.name.length + 1)) l.funcs ++ leBytes ptr 0)
def libOrig (c : ImportCfg) (ptr va ps : Nat) (l : ImportLib) : Bytes :=
  opt (libB c l) (lookBytes ptr va (ps + (l.name.length + 1)) l.funcs ++ leBytes ptr 0)

theorem libIat_length (c : ImportCfg) (ptr va ps : Nat) (l : ImportLib) :
    (libIat c ptr va ps l).length = (if libW c l then ptr else 0) * (l.funcs.length + 1) := by
  unfold libIat
  rw [opt_length, List.length_append, iatBytes_length, leBytes_length]
  cases libW c l <;> simp [Nat.mul_add]

theorem libOrig_length (c : ImportCfg) (ptr va ps : Nat) (l : ImportLib) :
    (libOrig c ptr va ps l).length = (if libB c l then ptr else 0) * (l.funcs.length + 1) := by
  unfold libOrig
  rw [opt_length, List.length_append, lookBytes_length, leBytes_length]
  cases libB c l <;> simp [Nat.mul_add]

theorem libStr_length (l : ImportLib) : (libStr l).length = l.name.length + 1 + (fnStrs l.funcs).length := by
  unfold libStr
  simp only [List.length_append, List.length_singleton]

theorem importDescr_length (a b c d : Nat) : (importDescr a b c d).length = 20 := by
  unfold importDescr; rw [encFields_length]; rfl

theorem putLib_spec {p : Image} {i va : Nat} {s : Sec} {d : Bytes} (hi : i < p.secs.length) {c : ImportCfg} (hf : c.fill = false)
    (hr : c.rewrite = false) {ps pi po pd ft oft : Nat} (hva : va + d.length < 2 ^ 32) (l : ImportLib)
    (h1 : ps + (libStr l).length ≤ pd) (h2 : pd + 20 ≤ pi)
    (h3 : pi + (if libW c l then p.kind.ptr else 0) * (l.funcs.length + 1) ≤ po)
    (h4 : po + (if libB c l then p.kind.ptr else 0) * (l.funcs.length + 1) ≤ d.length)
    (hn : libW c l = true → c.buildOrig = false → ∀ f ∈ l.funcs, f.name ≠ []) :
    ∃ d' ft' oft', ImportSt.putLib { img := p.withData i s d, str := ps, iat := pi, orig := po, ft := ft, oft := oft } c i va pd l =
        .ok { img := p.withData i s d', str := ps + (libStr l).length,
              iat := pi + (if libW c l then p.kind.ptr else 0) * (l.funcs.length + 1),
              orig := po + (if libB c l then p.kind.ptr else 0) * (l.funcs.length + 1), ft := ft', oft := oft' } ∧
      At d' ps (libStr l) ∧ At d' pd (importDescr (libOft c va po l) l.stamp (va + ps) (libFt c va pi l)) ∧
      At d' pi (libIat c p.kind.ptr va ps l) ∧ At d' po (libOrig c p.kind.ptr va ps l) ∧
      Mod d d' (fun j => (ps ≤ j ∧ j < ps + (libStr l).length) ∨ (pd ≤ j ∧ j < pd + 20) ∨
        (pi ≤ j ∧ j < pi + (if libW c l then p.kind.ptr else 0) * (l.funcs.length + 1)) ∨
        (po ≤ j ∧ j < po + (if libB c l then p.kind.ptr else 0) * (l.funcs.length + 1))) := by
  rw [libStr_length] at h1
  have hlsl := libStr_length l
  obtain ⟨hpl, ho, hft⟩ := plan_plain hf hr (va := va) (pi := pi) (po := po) l (by omega) (by omega)
  generalize hdd : importDescr (libOft c va po l) l.stamp (va + ps) (libFt c va pi l) = dd
  have hddl : dd.length = 20 := by rw [← hdd]; exact importDescr_length _ _ _ _
  obtain ⟨d1, e1, a1, m1⟩ := writeAt_mod (b := d) (o := pd) (x := dd) (by omega)
  obtain ⟨d2, e2, a2, m2⟩ := writeAt_mod (b := d1) (o := ps) (x := l.name ++ [0]) (by
    rw [m1.len]; simp only [List.length_append, List.length_singleton]; omega)
  simp only [List.length_append, List.length_singleton, hddl] at m1 m2
  have l1 := m1.len
  have l2 := m2.len
  generalize hW : (if libW c l = true then p.kind.ptr else 0) = W at *
  generalize hB : (if libB c l = true then p.kind.ptr else 0) = B at *
  rw [Nat.mul_add, Nat.mul_one] at h3 h4
  obtain ⟨d3, e3, b1, b2, b3, m3⟩ := putFns_spec (s := s) (va := va) hi hpl (libFt c va pi l) (libOft c va po l) l.funcs d2
    (ps + (l.name.length + 1)) pi po (by omega) (by omega) (by rw [hW]; omega) (by rw [hB]; omega)
    (fun x y => hn x (by unfold libB at y; rw [x] at y; simpa using y))
  rw [hW, hB] at e3 m3
  have l3 := m3.len
  obtain ⟨d4, e4, a4, m4⟩ : ∃ d', ImportSt.endIat { img := p.withData i s d3, str := ps + (l.name.length + 1) + (fnStrs l.funcs).length, iat := pi + W * l.funcs.length, orig := po + B * l.funcs.length, ft := libFt c va pi l, oft := libOft c va po l } i
        (importPlan c va pi po l) =
      .ok { img := p.withData i s d', str := ps + (l.name.length + 1) + (fnStrs l.funcs).length, iat := pi + W * l.funcs.length + W, orig := po + B * l.funcs.length, ft := libFt c va pi l, oft := libOft c va po l } ∧
      At d' (pi + W * l.funcs.length) (opt (libW c l) (leBytes p.kind.ptr 0)) ∧
      Mod d3 d' (fun j => pi + W * l.funcs.length ≤ j ∧ j < pi + W * l.funcs.length + W) := by
    unfold ImportSt.endIat
    rw [hpl.saved]
    cases hw : libW c l with
    | false =>
      rw [hw] at hW
      simp only [Bool.false_eq_true, if_false] at hW
      refine ⟨d3, ?_, at_nil (by omega), Mod.refl _ _⟩
      rw [← hW]; rfl
    | true =>
      rw [hw] at hW
      simp only [if_true] at hW
      simp only [Bool.not_true, Bool.false_eq_true, if_false]
      have := putIat_spec (p := p) (i := i) (s := s) (d := d3) hi (pl := importPlan c va pi po l)
        (ps := ps + (l.name.length + 1) + (fnStrs l.funcs).length) (pi := pi + W * l.funcs.length) (po := po + B * l.funcs.length)
        (ft := libFt c va pi l) (oft := libOft c va po l) hpl.rewIat (by omega) (by omega) 0
      rw [hW] at this ⊢
      exact this
  have l4 := m4.len
  obtain ⟨d5, e5, a5, m5⟩ := origStep (s := s) (d := d4) hi hpl (ps := ps + (l.name.length + 1) + (fnStrs l.funcs).length)
    (pi := pi + W * l.funcs.length + W) (po := po + B * l.funcs.length) (ft := libFt c va pi l) (oft := libOft c va po l)
    (by rw [hB]; omega) (by omega) 0
  rw [hB] at e5 m5
  refine ⟨d5, libFt c va pi l, libOft c va po l, ?_, ?_, ?_, ?_, ?_, ?_⟩
  · unfold ImportSt.putLib
    dsimp only
    rw [ho, hft, show w32 (va + ps) = va + ps by rw [w32, Nat.mod_eq_of_lt (by omega)], hdd, rawPut_withData hi e1, ok_bind,
      rawPut_withData hi e2, ok_bind, show w32 (ps + (l.name.length + 1)) = ps + (l.name.length + 1) by rw [w32, Nat.mod_eq_of_lt (by omega)],
      e3, ok_bind, e4, ok_bind, e5]
    refine congrArg Except.ok ?_
    simp only [ImportSt.mk.injEq, true_and, and_true, hlsl, Nat.mul_add, Nat.mul_one]
    omega
  · refine at_append ?_ ?_
    · refine m5.at (m4.at (m3.at a2 ?_) ?_) ?_ <;> simp only [List.length_append, List.length_singleton] <;> intro j _ _ <;> omega
    · simp only [List.length_append, List.length_singleton]
      refine m5.at (m4.at b1 ?_) ?_ <;> intro j _ _ <;> omega
  · refine m5.at (m4.at (m3.at (m2.at a1 ?_) ?_) ?_) ?_ <;> rw [hddl] <;> intro j _ _ <;> omega
  · have hl : (opt (libW c l) (iatBytes p.kind.ptr (libB c l) va (ps + (l.name.length + 1)) l.funcs)).length = W * l.funcs.length := by
      rw [opt_length, iatBytes_length, ← hW]; cases libW c l <;> simp
    unfold libIat
    rw [opt_append]
    refine at_append ?_ ?_
    · refine m5.at (m4.at b2 ?_) ?_ <;> rw [hl] <;> intro j _ _ <;> omega
    · rw [hl]
      have hl2 : (opt (libW c l) (leBytes p.kind.ptr 0)).length = W := by rw [opt_length, leBytes_length, ← hW]
      refine m5.at a4 ?_; rw [hl2]; intro j _ _; omega
  · have hl : (opt (libB c l) (lookBytes p.kind.ptr va (ps + (l.name.length + 1)) l.funcs)).length = B * l.funcs.length := by
      rw [opt_length, lookBytes_length, ← hB]; cases libB c l <;> simp
    unfold libOrig
    rw [opt_append]
    refine at_append ?_ ?_
    · refine m5.at (m4.at b3 ?_) ?_ <;> rw [hl] <;> intro j _ _ <;> omega
    · rw [hl]; exact a5
  · rw [hlsl, Nat.mul_add, Nat.mul_add, Nat.mul_one, Nat.mul_one]
    exact Mod.mono ((((m1.trans m2).trans m3).trans m4).trans m5) (fun j hj => by omega)

/-! ### All libraries -/

/-- The descriptors. -/
def descBytes (c : ImportCfg) (ptr va : Nat) : (ps pi po : Nat) → List ImportLib → Bytes
  | _, _, _, [] => zeros 20
  | ps, pi, po, l :: ls => importDescr (libOft c va po l) l.stamp (va + ps) (libFt c va pi l) ++
      descBytes c ptr va (ps + (libStr l).length) (pi + (libIat c ptr va ps l).length) (po + (libOrig c ptr va ps l).length) ls

def libIats (c : ImportCfg) (ptr va : Nat) : Nat → List ImportLib → Bytes
  | _, [] => []
  | ps, l :: ls => libIat c ptr va ps l ++ libIats c ptr va (ps + (libStr l).length) ls

def libOrigs (c : ImportCfg) (ptr va : Nat) : Nat → List ImportLib → Bytes
  | _, [] => []
  | ps, l :: ls => libOrig c ptr va ps l ++ libOrigs c ptr va (ps + (libStr l).length) ls

theorem descBytes_length (c : ImportCfg) (ptr va ps pi po : Nat) (ls : List ImportLib) :
    (descBytes c ptr va ps pi po ls).length = 20 * (ls.length + 1) := by
  induction ls generalizing ps pi po with
  | nil => simp [descBytes]
  | cons l ls ih => simp only [descBytes, List.length_append, importDescr_length, ih, List.length_cons]; omega

theorem putLibs_spec {p : Image} {i va : Nat} {s : Sec} (hi : i < p.secs.length) {c : ImportCfg} (hf : c.fill = false)
    (hr : c.rewrite = false) : ∀ (ls : List ImportLib) (d : Bytes) (ps pi po pd ft oft : Nat), va + d.length < 2 ^ 32 →
    ps + (libStrs ls).length ≤ pd → pd + 20 * (ls.length + 1) ≤ pi →
    pi + (libIats c p.kind.ptr va ps ls).length ≤ po → po + (libOrigs c p.kind.ptr va ps ls).length ≤ d.length →
    (∀ l ∈ ls, libW c l = true → c.buildOrig = false → ∀ f ∈ l.funcs, f.name ≠ []) →
    ∃ d' ft' oft', ImportSt.putLibs { img := p.withData i s d, str := ps, iat := pi, orig := po, ft := ft, oft := oft } c i va pd ls =
        .ok { img := p.withData i s d', str := ps + (libStrs ls).length, iat := pi + (libIats c p.kind.ptr va ps ls).length,
              orig := po + (libOrigs c p.kind.ptr va ps ls).length, ft := ft', oft := oft' } ∧
      At d' ps (libStrs ls) ∧ At d' pd (descBytes c p.kind.ptr va ps pi po ls) ∧ At d' pi (libIats c p.kind.ptr va ps ls) ∧
      At d' po (libOrigs c p.kind.ptr va ps ls) ∧
      Mod d d' (fun j => (ps ≤ j ∧ j < ps + (libStrs ls).length) ∨ (pd ≤ j ∧ j < pd + 20 * (ls.length + 1)) ∨
        (pi ≤ j ∧ j < pi + (libIats c p.kind.ptr va ps ls).length) ∨
        (po ≤ j ∧ j < po + (libOrigs c p.kind.ptr va ps ls).length)) := by
  intro ls
  induction ls with
  | nil =>
    intro d ps pi po pd ft oft h0 h1 h2 h3 h4 _
    simp only [libStrs, libIats, libOrigs, List.length_nil, Nat.add_zero] at h1 h2 h3 h4 ⊢
    obtain ⟨d1, e1, a1, m1⟩ := writeAt_mod (b := d) (o := pd) (x := zeros 20) (by rw [zeros_length]; omega)
    have l1 := m1.len
    rw [zeros_length] at m1
    refine ⟨d1, ft, oft, ?_, at_nil (by omega), a1, at_nil (by omega), at_nil (by omega), Mod.mono m1 (fun j hj => by omega)⟩
    rw [ImportSt.putLibs]
    dsimp only
    rw [rawPut_withData hi e1, ok_bind]
  | cons l ls ih =>
    intro d ps pi po pd ft oft h0 h1 h2 h3 h4 h5
    simp only [libStrs, libIats, libOrigs, List.length_append, List.length_cons] at h1 h2 h3 h4 ⊢
    have li := libIat_length c p.kind.ptr va ps l
    have lo := libOrig_length c p.kind.ptr va ps l
    obtain ⟨d1, ft1, oft1, e1, a1, a2, a3, a4, m1⟩ := putLib_spec (p := p) (va := va) (s := s) (d := d) hi hf hr (ps := ps) (pi := pi) (po := po) (pd := pd)
      (ft := ft) (oft := oft) h0 l (by omega) (by omega) (by rw [← li]; omega) (by rw [← lo]; omega) (h5 l List.mem_cons_self)
    rw [← li, ← lo] at e1 m1
    have l1 := m1.len
    obtain ⟨d2, ft2, oft2, e2, b1, b2, b3, b4, m2⟩ := ih d1 (ps + (libStr l).length) (pi + (libIat c p.kind.ptr va ps l).length)
      (po + (libOrig c p.kind.ptr va ps l).length) (pd + 20) ft1 oft1 (by omega) (by omega) (by omega) (by omega) (by omega)
      (fun g hg => h5 g (List.mem_cons_of_mem _ hg))
    refine ⟨d2, ft2, oft2, ?_, ?_, ?_, ?_, ?_, ?_⟩
    · rw [ImportSt.putLibs, e1, ok_bind, show w32 (pd + 20) = pd + 20 by rw [w32, Nat.mod_eq_of_lt (by omega)], e2]
      refine congrArg Except.ok ?_
      simp only [ImportSt.mk.injEq, true_and, and_true]
      omega
    · refine at_append (m2.at a1 ?_) b1
      intro j _ _; omega
    · rw [descBytes]
      refine at_append (m2.at a2 ?_) (by rw [importDescr_length]; exact b2)
      rw [importDescr_length]; intro j _ _; omega
    · refine at_append (m2.at a3 ?_) b3
      intro j _ _; omega
    · refine at_append (m2.at a4 ?_) b4
      intro j _ _; omega
    · exact Mod.mono (m1.trans m2) (fun j hj => by omega)

end PE
