/-
Helper lemmas: writing an import directory with all settings (functions, libraries).
-/
import Verif.Lemmas.ImportsAll

namespace PE

/-- Where the thunks of a table are written to: nowhere, the new data, the old table. -/
inductive Dest
  | none
  | new
  | old
  deriving DecidableEq

/-- Progress in the new data and in the old table for `n` written bytes. -/
def Dest.raw : Dest → Nat → Nat
  | .new, n => n
  | _, _ => 0
def Dest.tab : Dest → Nat → Nat
  | .old, n => n
  | _, _ => 0

def ImportPlan.iatDest (pl : ImportPlan) : Dest := if pl.saved then .none else if pl.rewIat then .old else .new
def ImportPlan.origDest (pl : ImportPlan) : Dest := if pl.writeOrig then (if pl.rewOrig then .old else .new) else .none

theorem TabRoom.ptr32 {p : Image} {i j a n : Nat} (hv : ValidTable p) (h : TabRoom p i j a n) : a + n < 2 ^ 32 := by
  obtain ⟨h0, s, g1, g2, g3, g4, g5⟩ := h
  have := (hv.fits s (List.mem_of_getElem? g1)).fin
  omega

theorem putIat_old {p : Image} {i j : Nat} {s : Sec} {d : Bytes} (hv : ValidTable p) (hs : p.secs[i]? = some s) {pl : ImportPlan}
    {ps pi po ft oft : Nat} (hr : pl.rewIat = true) (hroom : TabRoom p i j ft p.kind.ptr) (adv : Bool) (v : Nat) :
    ∃ p', ImportSt.putIat { img := p.withData i s d, str := ps, iat := pi, orig := po, ft := ft, oft := oft } i pl adv v =
        (.ok { img := p'.withData i s d, str := ps, iat := pi, orig := po, ft := ft + p.kind.ptr, oft := oft } : Res ImportSt) ∧
      TabAt p' j ft (leBytes p.kind.ptr v) ∧ Retabled p p' i (fun x => ft ≤ x ∧ x < ft + p.kind.ptr) := by
  obtain ⟨p', e, a, m⟩ := savedPut_spec (d := d) (v := v) hv hs hroom
  refine ⟨p', ?_, a, m⟩
  unfold ImportSt.putIat
  rw [hr, if_pos rfl]
  dsimp only
  have := hroom.ptr32 hv
  rw [e, ok_bind, show (p.withData i s d).kind.ptr = p.kind.ptr from rfl, w32, Nat.mod_eq_of_lt (by omega)]

theorem putOrig_old {p : Image} {i j : Nat} {s : Sec} {d : Bytes} (hv : ValidTable p) (hs : p.secs[i]? = some s) {pl : ImportPlan}
    {ps pi po ft oft : Nat} (hr : pl.rewOrig = true) (hroom : TabRoom p i j oft p.kind.ptr) (v : Nat) :
    ∃ p', ImportSt.putOrig { img := p.withData i s d, str := ps, iat := pi, orig := po, ft := ft, oft := oft } i pl v =
        (.ok { img := p'.withData i s d, str := ps, iat := pi, orig := po, ft := ft, oft := oft + p.kind.ptr } : Res ImportSt) ∧
      TabAt p' j oft (leBytes p.kind.ptr v) ∧ Retabled p p' i (fun x => oft ≤ x ∧ x < oft + p.kind.ptr) := by
  obtain ⟨p', e, a, m⟩ := savedPut_spec (d := d) (v := v) hv hs hroom
  refine ⟨p', ?_, a, m⟩
  unfold ImportSt.putOrig
  rw [hr, if_pos rfl]
  dsimp only
  have := hroom.ptr32 hv
  rw [e, ok_bind, show (p.withData i s d).kind.ptr = p.kind.ptr from rfl, w32, Nat.mod_eq_of_lt (by omega)]

/-- What one write of a thunk does to the new data `d` (position `pos`) and to the old table (address `a` in section `j`). -/
structure Thunk (p p' : Image) (d d' : Bytes) (i j : Nat) (k : Dest) (pos a v : Nat) : Prop where
  raw : k = .new → At d' pos (leBytes p.kind.ptr v)
  tab : k = .old → TabAt p' j a (leBytes p.kind.ptr v)
  mod : Mod d d' (fun x => pos ≤ x ∧ x < pos + k.raw p.kind.ptr)
  ret : Retabled p p' i (fun x => a ≤ x ∧ x < a + k.tab p.kind.ptr)

theorem Thunk.same {p : Image} {d : Bytes} {i j pos a v : Nat} : Thunk p p d d i j .none pos a v :=
  ⟨(fun h => by cases h), (fun h => by cases h), Mod.refl _ _, Retabled.refl _ _ _⟩

theorem idest {pl : ImportPlan} {k : Dest} (h : pl.iatDest = k) : (k = .none → pl.saved = true) ∧
    (k ≠ .none → pl.saved = false) ∧ (k = .old → pl.rewIat = true) ∧ (k = .new → pl.rewIat = false) := by
  unfold ImportPlan.iatDest at h
  subst h
  cases pl.saved <;> cases pl.rewIat <;> simp

theorem odest {pl : ImportPlan} {k : Dest} (h : pl.origDest = k) : (k = .none → pl.writeOrig = false) ∧
    (k ≠ .none → pl.writeOrig = true) ∧ (k = .old → pl.rewOrig = true) ∧ (k = .new → pl.rewOrig = false) := by
  unfold ImportPlan.origDest at h
  subst h
  cases pl.writeOrig <;> cases pl.rewOrig <;> simp

/-- A thunk of the IAT. -/
theorem putIat_all {p : Image} {i j : Nat} {s : Sec} {d : Bytes} (hv : ValidTable p) (hs : p.secs[i]? = some s) {pl : ImportPlan}
    {k : Dest} (hk : pl.iatDest = k) (hne : k ≠ .none) {ps pi po ft oft : Nat} (h : pi + k.raw p.kind.ptr ≤ d.length) (hd : d.length < 2 ^ 32)
    (hroom : k = .old → TabRoom p i j ft p.kind.ptr) (adv : Bool) (hadv : k = .new → adv = true) (v : Nat) :
    ∃ p' d', ImportSt.putIat { img := p.withData i s d, str := ps, iat := pi, orig := po, ft := ft, oft := oft } i pl adv v =
        (.ok { img := p'.withData i s d', str := ps, iat := pi + k.raw p.kind.ptr, orig := po, ft := ft + k.tab p.kind.ptr, oft := oft } : Res ImportSt) ∧
      Thunk p p' d d' i j k pi ft v := by
  obtain ⟨-, -, k3, k4⟩ := idest hk
  have hi : i < p.secs.length := (List.getElem?_eq_some_iff.mp hs).1
  cases k with
  | none => exact absurd rfl hne
  | new =>
    rw [hadv rfl]
    obtain ⟨d', e, a, m⟩ := putIat_spec (s := s) (ps := ps) (po := po) (ft := ft) (oft := oft) hi (k4 rfl) h hd v
    exact ⟨p, d', e, fun _ => a, (fun h => by cases h), m, Retabled.refl _ _ _⟩
  | old =>
    obtain ⟨p', e, a, m⟩ := putIat_old (d := d) (ps := ps) (pi := pi) (po := po) (oft := oft) hv hs (k3 rfl) (hroom rfl) adv v
    exact ⟨p', d, e, (fun h => by cases h), fun _ => a, Mod.refl _ _, m⟩

/-- The optional write of an IAT value. -/
theorem fnIat_all {p : Image} {i j : Nat} {s : Sec} {d : Bytes} (hv : ValidTable p) (hs : p.secs[i]? = some s) {pl : ImportPlan}
    {k : Dest} (hk : pl.iatDest = k) {ps pi po ft oft : Nat} (h : pi + k.raw p.kind.ptr ≤ d.length) (hd : d.length < 2 ^ 32)
    (hroom : k = .old → TabRoom p i j ft p.kind.ptr) (f : ImportFn) (v : Nat) (hf : k = .new → pl.writeOrig = false → f.name ≠ []) :
    ∃ p' d', ImportSt.fnIat { img := p.withData i s d, str := ps, iat := pi, orig := po, ft := ft, oft := oft } i pl f v =
        (.ok { img := p'.withData i s d', str := ps, iat := pi + k.raw p.kind.ptr, orig := po, ft := ft + k.tab p.kind.ptr, oft := oft } : Res ImportSt) ∧
      Thunk p p' d d' i j k pi ft (if pl.writeOrig then f.iatVa else v) := by
  obtain ⟨k1, k2, -, -⟩ := idest hk
  unfold ImportSt.fnIat
  by_cases hn : k = .none
  · subst hn
    rw [k1 rfl]
    exact ⟨p, d, rfl, Thunk.same⟩
  · rw [k2 hn, if_neg (by simp)]
    cases hw : pl.writeOrig with
    | true =>
      simp only [if_true]
      exact putIat_all hv hs hk hn h hd hroom true (fun _ => rfl) _
    | false =>
      simp only [Bool.false_eq_true, if_false]
      exact putIat_all hv hs hk hn h hd hroom _ (fun h => decide_eq_true (hf h hw)) _

/-- The optional write of a lookup value. -/
theorem fnOrig_all {p : Image} {i j : Nat} {s : Sec} {d : Bytes} (hv : ValidTable p) (hs : p.secs[i]? = some s) {pl : ImportPlan}
    {k : Dest} (hk : pl.origDest = k) {ps pi po ft oft : Nat} (h : po + k.raw p.kind.ptr ≤ d.length) (hd : d.length < 2 ^ 32)
    (hroom : k = .old → TabRoom p i j oft p.kind.ptr) (v : Nat) :
    ∃ p' d', ImportSt.fnOrig { img := p.withData i s d, str := ps, iat := pi, orig := po, ft := ft, oft := oft } i pl v =
        (.ok { img := p'.withData i s d', str := ps, iat := pi, orig := po + k.raw p.kind.ptr, ft := ft, oft := oft + k.tab p.kind.ptr } : Res ImportSt) ∧
      Thunk p p' d d' i j k po oft v := by
  obtain ⟨k1, k2, k3, k4⟩ := odest hk
  have hi : i < p.secs.length := (List.getElem?_eq_some_iff.mp hs).1
  unfold ImportSt.fnOrig
  cases k with
  | none =>
    rw [k1 rfl]
    exact ⟨p, d, rfl, Thunk.same⟩
  | new =>
    rw [k2 (by decide), if_pos rfl]
    obtain ⟨d', e, a, m⟩ := putOrig_spec (s := s) (ps := ps) (pi := pi) (ft := ft) (oft := oft) hi (k4 rfl) h hd v
    exact ⟨p, d', e, fun _ => a, (fun h => by cases h), m, Retabled.refl _ _ _⟩
  | old =>
    rw [k2 (by decide), if_pos rfl]
    obtain ⟨p', e, a, m⟩ := putOrig_old (d := d) (ps := ps) (pi := pi) (po := po) (ft := ft) hv hs (k3 rfl) (hroom rfl) v
    exact ⟨p', d, e, (fun h => by cases h), fun _ => a, Mod.refl _ _, m⟩

/-- A table (or a part of it) after its thunks `x` were written. -/
structure Tables (p' : Image) (d' : Bytes) (j : Nat) (k : Dest) (pos a : Nat) (x : Bytes) : Prop where
  raw : k = .new → At d' pos x
  tab : k = .old → TabAt p' j a x

theorem Thunk.tables {p p' : Image} {d d' : Bytes} {i j : Nat} {k : Dest} {pos a v : Nat} (h : Thunk p p' d d' i j k pos a v) :
    Tables p' d' j k pos a (leBytes p.kind.ptr v) := ⟨h.raw, h.tab⟩

theorem Tables.keep {p p' : Image} {d d' : Bytes} {i j : Nat} {k : Dest} {pos a : Nat} {x : Bytes} {S R : Nat → Prop}
    (h : Tables p d j k pos a x) (hm : Mod d d' S) (hr : Retabled p p' i R)
    (hS : k = .new → ∀ y, pos ≤ y → y < pos + x.length → ¬ S y) (hR : k = .old → ∀ y, a ≤ y → y < a + x.length → ¬ R y) :
    Tables p' d' j k pos a x :=
  ⟨fun hk => hm.at (h.raw hk) (hS hk), fun hk => hr.tab (h.tab hk) (hR hk)⟩

theorem Tables.append {p : Image} {d : Bytes} {j : Nat} {k : Dest} {pos a n : Nat} {x y : Bytes}
    (h : Tables p d j k pos a x) (hx : x.length = n) (h' : Tables p d j k (pos + k.raw n) (a + k.tab n) y) : Tables p d j k pos a (x ++ y) := by
  subst hx
  refine ⟨fun hk => at_append (h.raw hk) ?_, fun hk => (h.tab hk).append ?_⟩
  · subst hk; exact h'.raw rfl
  · subst hk; exact h'.tab rfl

theorem Tables.nil {p : Image} {d : Bytes} {i j : Nat} {k : Dest} {pos a n : Nat} (h : k = .new → pos ≤ d.length)
    (hr : k = .old → TabRoom p i j a n) : Tables p d j k pos a [] := ⟨fun hk => at_nil (h hk), fun hk => TabAt.nil (hr hk)⟩

theorem Dest.le (k : Dest) (n : Nat) : k.raw n ≤ n ∧ k.tab n ≤ n ∧ (k = .new → k.raw n = n) ∧ (k = .old → k.tab n = n) ∧
    (k ≠ .new → k.raw n = 0) ∧ (k ≠ .old → k.tab n = 0) := by
  cases k <;> simp [Dest.raw, Dest.tab]

/-- One function. -/
theorem putFn_all {p : Image} {i j1 j2 va : Nat} {s : Sec} {d : Bytes} (hv : ValidTable p) (hs : p.secs[i]? = some s) {pl : ImportPlan}
    {k1 k2 : Dest} (hk1 : pl.iatDest = k1) (hk2 : pl.origDest = k2) {ps pi po ft oft : Nat} (hva : va + d.length < 2 ^ 32) (f : ImportFn)
    (h1 : ps + (fnStr f).length ≤ pi) (h2 : pi + k1.raw p.kind.ptr ≤ po) (h3 : po + k2.raw p.kind.ptr ≤ d.length)
    (hr1 : k1 = .old → TabRoom p i j1 ft p.kind.ptr) (hr2 : k2 = .old → TabRoom p i j2 oft p.kind.ptr)
    (hap : k1 = .old → k2 = .old → ft + p.kind.ptr ≤ oft ∨ oft + p.kind.ptr ≤ ft)
    (hf : k1 = .new → pl.writeOrig = false → f.name ≠ []) :
    ∃ p' d', ImportSt.putFn { img := p.withData i s d, str := ps, iat := pi, orig := po, ft := ft, oft := oft } i va pl f =
        (.ok { img := p'.withData i s d', str := ps + (fnStr f).length, iat := pi + k1.raw p.kind.ptr, orig := po + k2.raw p.kind.ptr, ft := ft + k1.tab p.kind.ptr, oft := oft + k2.tab p.kind.ptr } : Res ImportSt) ∧
      At d' ps (fnStr f) ∧ Tables p' d' j1 k1 pi ft (leBytes p.kind.ptr (iatVal p.kind.ptr pl.writeOrig va ps f)) ∧
      Tables p' d' j2 k2 po oft (leBytes p.kind.ptr (lookVal p.kind.ptr va ps f)) ∧
      Mod d d' (fun j => (ps ≤ j ∧ j < ps + (fnStr f).length) ∨ (pi ≤ j ∧ j < pi + k1.raw p.kind.ptr) ∨
        (po ≤ j ∧ j < po + k2.raw p.kind.ptr)) ∧
      Retabled p p' i (fun x => (ft ≤ x ∧ x < ft + k1.tab p.kind.ptr) ∨ (oft ≤ x ∧ x < oft + k2.tab p.kind.ptr)) := by
  have hi : i < p.secs.length := (List.getElem?_eq_some_iff.mp hs).1
  have hv' : (if f.name ≠ [] then w32 (va + ps) else f.ordinal ||| 2 ^ (8 * p.kind.ptr - 1)) = lookVal p.kind.ptr va ps f := by
    unfold lookVal
    by_cases hn : f.name = []
    · rw [if_neg (by simp [hn]), if_pos hn]
    · rw [if_pos hn, if_neg hn, w32, Nat.mod_eq_of_lt (by omega)]
  obtain ⟨p1, d1, e1, t1⟩ := fnIat_all (j := j1) (d := d) hv hs hk1 (ps := ps) (pi := pi) (po := po) (ft := ft) (oft := oft) (by omega) (by omega) hr1 f
    (lookVal p.kind.ptr va ps f) hf
  have l1 := t1.mod.len
  have hp1 := t1.ret.kind
  obtain ⟨p2, d2, e2, t2⟩ := fnOrig_all (j := j2) (s := s) (d := d1) (t1.ret.valid hv) (by rw [t1.ret.own]; exact hs) hk2 (ps := ps)
    (pi := pi + k1.raw p.kind.ptr) (po := po) (ft := ft + k1.tab p.kind.ptr)
    (oft := oft) (by rw [hp1]; omega) (by omega) (fun h => by rw [hp1]; exact t1.ret.room (hr2 h)) (lookVal p.kind.ptr va ps f)
  have l2 := t2.mod.len
  have m2 := t2.mod
  have r2 := t2.ret
  have hp2 := t2.ret.kind
  have T2 := t2.tables
  rw [hp1] at m2 r2 e2 T2
  have hi2 : i < p2.secs.length := by rw [t2.ret.count, t1.ret.count]; exact hi
  have T1 := t1.tables.keep (i := i) m2 r2 (fun hk y h h' => by
      rw [leBytes_length] at h'
      have := (k1.le p.kind.ptr).2.2.1 hk
      omega) (fun hk y h h' => by
      rw [leBytes_length] at h'
      have := hap hk
      by_cases h2 : k2 = .old
      · have := this h2
        have := k2.le p.kind.ptr
        omega
      · have := (k2.le p.kind.ptr).2.2.2.2.2 h2
        omega)
  have hx : (if pl.writeOrig then f.iatVa else lookVal p.kind.ptr va ps f) = iatVal p.kind.ptr pl.writeOrig va ps f := rfl
  rw [hx] at T1
  unfold ImportSt.putFn
  dsimp only
  rw [show (p.withData i s d).kind.ptr = p.kind.ptr from rfl, hv', e1, ok_bind, e2, ok_bind]
  have hfl := fnStr_length f
  have hret : Retabled p p2 i (fun x => (ft ≤ x ∧ x < ft + k1.tab p.kind.ptr) ∨ (oft ≤ x ∧ x < oft + k2.tab p.kind.ptr)) := t1.ret.trans r2
  by_cases hn : f.name = []
  · rw [if_neg (by simp [hn])]
    have hz : fnStr f = [] := by unfold fnStr; rw [if_pos hn]
    rw [hz]
    refine ⟨p2, d2, rfl, at_nil (by omega), T1, T2, ?_, hret⟩
    exact Mod.mono (t1.mod.trans m2) (fun j hj => by omega)
  · rw [if_pos hn]
    rw [if_neg hn] at hfl
    have hs : fnStr f = leBytes 2 f.hint ++ (f.name ++ [0]) := by unfold fnStr; rw [if_neg hn]
    obtain ⟨d3, e3, a3, m3⟩ := writeAt_mod (b := d2) (o := ps) (x := leBytes 2 f.hint) (by rw [leBytes_length]; omega)
    obtain ⟨d4, e4, a4, m4⟩ := writeAt_mod (b := d3) (o := ps + 2) (x := f.name ++ [0]) (by
      rw [m3.len]; simp only [List.length_append, List.length_singleton]; omega)
    simp only [List.length_append, List.length_singleton, leBytes_length] at m3 m4
    have l3 := m3.len
    have l4 := m4.len
    rw [rawPut_withData hi2 e3, ok_bind, show w32 (ps + 2) = ps + 2 by rw [w32, Nat.mod_eq_of_lt (by omega)],
      rawPut_withData hi2 e4, ok_bind,
      show w32 (ps + (f.name.length + 1 + 2)) = ps + (fnStr f).length by rw [w32, Nat.mod_eq_of_lt (by omega)]; omega]
    have hm34 := m3.trans m4
    refine ⟨p2, d4, rfl, ?_, ?_, ?_, ?_, hret⟩
    · rw [hs]
      refine at_append (m4.at a3 ?_) (by rw [leBytes_length]; exact a4)
      rw [leBytes_length]; intro j _ _; omega
    · exact T1.keep (i := i) hm34 (Retabled.refl p2 i (fun _ => False)) (fun _ y h h' => by omega) (fun _ y _ _ h => h)
    · exact T2.keep (i := i) hm34 (Retabled.refl p2 i (fun _ => False)) (fun _ y h h' => by omega) (fun _ y _ _ h => h)
    · exact Mod.mono ((t1.mod.trans m2).trans hm34) (fun j hj => by omega)

theorem Dest.mul (k : Dest) (a b : Nat) : k.raw a * b = k.raw (a * b) ∧ k.tab a * b = k.tab (a * b) ∧
    k.raw (a + b) = k.raw a + k.raw b ∧ k.tab (a + b) = k.tab a + k.tab b := by
  cases k <;> simp [Dest.raw, Dest.tab]

/-- All functions of a library. -/
theorem putFns_all {i j1 j2 va : Nat} {s : Sec} {pl : ImportPlan}
    {k1 k2 : Dest} (hk1 : pl.iatDest = k1) (hk2 : pl.origDest = k2) (n : Nat) : ∀ (fs : List ImportFn) (p : Image) (d : Bytes) (ps pi po ft oft : Nat),
    ValidTable p → p.secs[i]? = some s → p.kind.ptr = n → va + d.length < 2 ^ 32 →
    ps + (fnStrs fs).length ≤ pi → pi + k1.raw n * fs.length ≤ po → po + k2.raw n * fs.length ≤ d.length →
    (k1 = .old → TabRoom p i j1 ft (n * fs.length)) → (k2 = .old → TabRoom p i j2 oft (n * fs.length)) →
    (k1 = .old → k2 = .old → ft + n * fs.length ≤ oft ∨ oft + n * fs.length ≤ ft) →
    (k1 = .new → pl.writeOrig = false → ∀ f ∈ fs, f.name ≠ []) →
    ∃ p' d', ImportSt.putFns { img := p.withData i s d, str := ps, iat := pi, orig := po, ft := ft, oft := oft } i va pl fs =
        (.ok { img := p'.withData i s d', str := ps + (fnStrs fs).length, iat := pi + k1.raw n * fs.length, orig := po + k2.raw n * fs.length, ft := ft + k1.tab n * fs.length, oft := oft + k2.tab n * fs.length } : Res ImportSt) ∧
      At d' ps (fnStrs fs) ∧ Tables p' d' j1 k1 pi ft (iatBytes n pl.writeOrig va ps fs) ∧
      Tables p' d' j2 k2 po oft (lookBytes n va ps fs) ∧
      Mod d d' (fun j => (ps ≤ j ∧ j < ps + (fnStrs fs).length) ∨ (pi ≤ j ∧ j < pi + k1.raw n * fs.length) ∨
        (po ≤ j ∧ j < po + k2.raw n * fs.length)) ∧
      Retabled p p' i (fun x => (ft ≤ x ∧ x < ft + k1.tab n * fs.length) ∨ (oft ≤ x ∧ x < oft + k2.tab n * fs.length)) := by
  intro fs
  induction fs with
  | nil =>
    intro p d ps pi po ft oft hv hs hp h0 h1 h2 h3 h4 h5 _ _
    simp only [fnStrs, List.length_nil, Nat.mul_zero, Nat.add_zero] at h1 h2 h3 h4 h5
    exact ⟨p, d, rfl, at_nil (by omega), Tables.nil (fun _ => by omega) h4, Tables.nil (fun _ => by omega) h5, Mod.refl _ _, Retabled.refl _ _ _⟩
  | cons f fs ih =>
    intro p d ps pi po ft oft hv hs hp h0 h1 h2 h3 h4 h5 h6 h7
    simp only [fnStrs, List.length_append, List.length_cons, Nat.mul_add, Nat.mul_one] at h1 h2 h3 h4 h5 h6 ⊢
    subst hp
    obtain ⟨p1, d1, e1, a1, a2, a3, m1, r1⟩ := putFn_all (j1 := j1) (j2 := j2) (va := va) (s := s) (d := d) hv hs hk1 hk2 (ps := ps) (pi := pi) (po := po)
      (ft := ft) (oft := oft) h0 f
      (by omega) (by omega) (by omega) (fun h => (h4 h).sub (Nat.le_refl _) (by omega)) (fun h => (h5 h).sub (Nat.le_refl _) (by omega))
      (fun x y => by have := h6 x y; omega)
      (fun x y => h7 x y f List.mem_cons_self)
    have l1 := m1.len
    have kr1 := k1.le p.kind.ptr
    have kr2 := k2.le p.kind.ptr
    have km1 := k1.mul p.kind.ptr fs.length
    have km2 := k2.mul p.kind.ptr fs.length
    have ks1 := k1.le (p.kind.ptr * fs.length)
    have ks2 := k2.le (p.kind.ptr * fs.length)
    obtain ⟨p2, d2, e2, b1, b2, b3, m2, r2⟩ := ih p1 d1 (ps + (fnStr f).length) (pi + k1.raw p.kind.ptr)
      (po + k2.raw p.kind.ptr) (ft + k1.tab p.kind.ptr) (oft + k2.tab p.kind.ptr) (r1.valid hv) (by rw [r1.own]; exact hs) (by rw [r1.kind])
      (by omega) (by omega) (by omega) (by omega)
      (fun h => r1.room ((h4 h).sub (by omega) (by omega))) (fun h => r1.room ((h5 h).sub (by omega) (by omega)))
      (fun x y => by have := h6 x y; have := kr1.2.2.2.1 x; have := kr2.2.2.2.1 y; omega)
      (fun x y g hg => h7 x y g (List.mem_cons_of_mem _ hg))
    generalize hL : p.kind.ptr * fs.length = L at *
    generalize hWF : k1.raw p.kind.ptr * fs.length = WF at *
    generalize hBF : k2.raw p.kind.ptr * fs.length = BF at *
    generalize hWT : k1.tab p.kind.ptr * fs.length = WT at *
    generalize hBT : k2.tab p.kind.ptr * fs.length = BT at *
    refine ⟨p2, d2, ?_, ?_, ?_, ?_, ?_, ?_⟩
    · rw [ImportSt.putFns, e1, ok_bind, e2]
      refine congrArg Except.ok ?_
      simp only [ImportSt.mk.injEq, true_and]
      omega
    · refine at_append (m2.at a1 ?_) b1
      intro j _ _; omega
    · rw [iatBytes]
      refine (a2.keep (i := i) m2 r2 ?_ ?_).append (leBytes_length _ _) b2
      · rw [leBytes_length]; intro hk y _ _
        have := kr1.2.2.1 hk
        omega
      · rw [leBytes_length]; intro hk y _ _
        have := kr1.2.2.2.1 hk
        have := ks1.2.2.2.1 hk
        by_cases hk2' : k2 = .old
        · have := h6 hk hk2'
          omega
        · have := kr2.2.2.2.2.2 hk2'
          have := ks2.2.2.2.2.2 hk2'
          omega
    · rw [lookBytes]
      refine (a3.keep (i := i) m2 r2 ?_ ?_).append (leBytes_length _ _) b3
      · rw [leBytes_length]; intro hk y _ _
        have := kr2.2.2.1 hk
        omega
      · rw [leBytes_length]; intro hk y _ _
        have := kr2.2.2.2.1 hk
        have := ks2.2.2.2.1 hk
        by_cases hk2' : k1 = .old
        · have := h6 hk2' hk
          omega
        · have := kr1.2.2.2.2.2 hk2'
          have := ks1.2.2.2.2.2 hk2'
          omega
    · exact Mod.mono (m1.trans m2) (fun j hj => by omega)
    · exact Retabled.mono (r1.trans r2) (fun j hj => by omega)

end PE
