/-
Helper lemmas: writing an import directory with all settings (libraries).
-/
import Verif.Lemmas.ImportsAllWrite

namespace PE

/-! ### The plan of a library -/

/-- Where the tables of the library are written to. -/
def allI (c : ImportCfg) (l : ImportLib) : Dest := if l.Kept c.save then (if c.rewrite then .old else .none) else .new
def allO (c : ImportCfg) (l : ImportLib) : Dest := if l.Relooked c then .old else if l.NewLook c then .new else .none

/-- Lookup values are written somewhere; the IAT gets the addresses of the functions then. -/
def allB (c : ImportCfg) (l : ImportLib) : Bool := decide (l.Relooked c ∨ l.NewLook c)

/-- The table addresses in the descriptor. -/
def allFt (c : ImportCfg) (va pi : Nat) (l : ImportLib) : Nat := if l.Kept c.save then l.rvaIat else va + pi
def allOft (c : ImportCfg) (va po : Nat) (l : ImportLib) : Nat :=
  if c.buildOrig then
    (if l.Kept c.save then (if l.rvaOrig = 0 then (if c.fill then va + po else 0) else l.rvaOrig) else va + po)
  else 0

theorem plan_all (c : ImportCfg) {va pi po : Nat} (l : ImportLib) (h1 : va + pi < 2 ^ 32) (h2 : va + po < 2 ^ 32) :
    (importPlan c va pi po l).iatDest = allI c l ∧ (importPlan c va pi po l).origDest = allO c l ∧
      (importPlan c va pi po l).writeOrig = allB c l ∧ (importPlan c va pi po l).oft = allOft c va po l ∧
      (importPlan c va pi po l).ft = allFt c va pi l := by
  have w1 : w32 (va + pi) = va + pi := by rw [w32, Nat.mod_eq_of_lt (by omega)]
  have w2 : w32 (va + po) = va + po := by rw [w32, Nat.mod_eq_of_lt (by omega)]
  obtain ⟨cb, cs, cf, cr⟩ := c
  unfold importPlan ImportPlan.iatDest ImportPlan.origDest allI allO allB allOft allFt ImportLib.NewLook ImportLib.Relooked ImportLib.Kept
  dsimp only
  by_cases hk : l.rvaIat = 0 <;> by_cases ho : l.rvaOrig = 0 <;> cases cs <;> cases cb <;> cases cf <;> cases cr <;> simp [hk, ho, w1, w2]

/-! ### One library -/

/-- The tables of a library with their final thunks, its strings start at `ps`. -/
def allIat (c : ImportCfg) (n va ps : Nat) (l : ImportLib) : Bytes :=
  iatBytes n (allB c l) va (ps + (l.name.length + 1)) l.funcs ++ leBytes n 0
def allOrig (n va ps : Nat) (l : ImportLib) : Bytes := lookBytes n va (ps + (l.name.length + 1)) l.funcs ++ leBytes n 0

theorem allIat_length (c : ImportCfg) (n va ps : Nat) (l : ImportLib) : (allIat c n va ps l).length = n * (l.funcs.length + 1) := by
  unfold allIat; rw [List.length_append, iatBytes_length, leBytes_length, Nat.mul_add, Nat.mul_one]
theorem allOrig_length (n va ps : Nat) (l : ImportLib) : (allOrig n va ps l).length = n * (l.funcs.length + 1) := by
  unfold allOrig; rw [List.length_append, lookBytes_length, leBytes_length, Nat.mul_add, Nat.mul_one]

theorem putLib_all {p : Image} {i j1 j2 va n : Nat} {s : Sec} {d : Bytes} (hv : ValidTable p) (hs : p.secs[i]? = some s)
    (hp : p.kind.ptr = n) {c : ImportCfg} {ps pi po pd ft oft : Nat} (hva : va + d.length < 2 ^ 32) (l : ImportLib)
    (h1 : ps + (libStr l).length ≤ pd) (h2 : pd + 20 ≤ pi)
    (h3 : pi + (allI c l).raw (n * (l.funcs.length + 1)) ≤ po)
    (h4 : po + (allO c l).raw (n * (l.funcs.length + 1)) ≤ d.length)
    (hr1 : allI c l = .old → TabRoom p i j1 (allFt c va pi l) (n * (l.funcs.length + 1)))
    (hr2 : allO c l = .old → TabRoom p i j2 (allOft c va po l) (n * (l.funcs.length + 1)))
    (hap : allI c l = .old → allO c l = .old →
      TabsApart (allFt c va pi l, n * (l.funcs.length + 1)) (allOft c va po l, n * (l.funcs.length + 1)))
    (hn : allI c l = .new → allB c l = false → ∀ f ∈ l.funcs, f.name ≠ []) :
    ∃ p' d' ft' oft', ImportSt.putLib { img := p.withData i s d, str := ps, iat := pi, orig := po, ft := ft, oft := oft } c i va pd l =
        (.ok { img := p'.withData i s d', str := ps + (libStr l).length, iat := pi + (allI c l).raw (n * (l.funcs.length + 1)), orig := po + (allO c l).raw (n * (l.funcs.length + 1)), ft := ft', oft := oft' } : Res ImportSt) ∧
      At d' ps (libStr l) ∧ At d' pd (importDescr (allOft c va po l) l.stamp (va + ps) (allFt c va pi l)) ∧
      Tables p' d' j1 (allI c l) pi (allFt c va pi l) (allIat c n va ps l) ∧
      Tables p' d' j2 (allO c l) po (allOft c va po l) (allOrig n va ps l) ∧
      Mod d d' (fun j => (ps ≤ j ∧ j < ps + (libStr l).length) ∨ (pd ≤ j ∧ j < pd + 20) ∨
        (pi ≤ j ∧ j < pi + (allI c l).raw (n * (l.funcs.length + 1))) ∨
        (po ≤ j ∧ j < po + (allO c l).raw (n * (l.funcs.length + 1)))) ∧
      Retabled p p' i (fun x => (allFt c va pi l ≤ x ∧ x < allFt c va pi l + (allI c l).tab (n * (l.funcs.length + 1))) ∨
        (allOft c va po l ≤ x ∧ x < allOft c va po l + (allO c l).tab (n * (l.funcs.length + 1)))) := by
  subst hp
  have hi : i < p.secs.length := (List.getElem?_eq_some_iff.mp hs).1
  rw [libStr_length] at h1
  have hlsl := libStr_length l
  obtain ⟨hpi, hpo, hpb, ho, hft⟩ := plan_all c (va := va) (pi := pi) (po := po) l (by omega) (by omega)
  generalize hdd : importDescr (allOft c va po l) l.stamp (va + ps) (allFt c va pi l) = dd
  have hddl : dd.length = 20 := by rw [← hdd]; exact importDescr_length _ _ _ _
  obtain ⟨d1, e1, a1, m1⟩ := writeAt_mod (b := d) (o := pd) (x := dd) (by omega)
  obtain ⟨d2, e2, a2, m2⟩ := writeAt_mod (b := d1) (o := ps) (x := l.name ++ [0]) (by
    rw [m1.len]; simp only [List.length_append, List.length_singleton]; omega)
  simp only [List.length_append, List.length_singleton, hddl] at m1 m2
  have l1 := m1.len
  have l2 := m2.len
  generalize hFT : allFt c va pi l = FT at *
  generalize hOT : allOft c va po l = OT at *
  generalize hk1 : allI c l = k1 at *
  generalize hk2 : allO c l = k2 at *
  simp only [Nat.mul_add, Nat.mul_one] at h3 h4 hr1 hr2 hap ⊢
  have q1 := k1.le p.kind.ptr
  have q2 := k2.le p.kind.ptr
  have u1 := k1.mul p.kind.ptr l.funcs.length
  have u2 := k2.mul p.kind.ptr l.funcs.length
  have v1 := (k1.mul (p.kind.ptr * l.funcs.length) p.kind.ptr).2.2
  have v2 := (k2.mul (p.kind.ptr * l.funcs.length) p.kind.ptr).2.2
  have w1 := k1.le (p.kind.ptr * l.funcs.length)
  have w2 := k2.le (p.kind.ptr * l.funcs.length)
  obtain ⟨p3, d3, e3, b1, b2, b3, m3, r3⟩ := putFns_all (j1 := j1) (j2 := j2) (s := s) (va := va) hpi hpo p.kind.ptr l.funcs p d2
    (ps + (l.name.length + 1)) pi po FT OT hv hs rfl (by omega) (by omega) (by omega) (by omega)
    (fun h => (hr1 h).sub (Nat.le_refl _) (by omega)) (fun h => (hr2 h).sub (Nat.le_refl _) (by omega))
    (fun x y => by have := hap x y; unfold TabsApart at this; dsimp only at this; omega) (fun x y => hn x (by rw [hpb] at y; exact y))
  rw [hpb] at b2
  have l3 := m3.len
  have hp3 := r3.kind
  -- the final thunk of the IAT
  obtain ⟨p4, d4, e4, t4⟩ : ∃ p' d', ImportSt.endIat { img := p3.withData i s d3, str := ps + (l.name.length + 1) + (fnStrs l.funcs).length, iat := pi + k1.raw p.kind.ptr * l.funcs.length, orig := po + k2.raw p.kind.ptr * l.funcs.length, ft := FT + k1.tab p.kind.ptr * l.funcs.length, oft := OT + k2.tab p.kind.ptr * l.funcs.length } i
        (importPlan c va pi po l) =
      (.ok { img := p'.withData i s d', str := ps + (l.name.length + 1) + (fnStrs l.funcs).length, iat := pi + k1.raw p.kind.ptr * l.funcs.length + k1.raw p.kind.ptr, orig := po + k2.raw p.kind.ptr * l.funcs.length, ft := FT + k1.tab p.kind.ptr * l.funcs.length + k1.tab p.kind.ptr, oft := OT + k2.tab p.kind.ptr * l.funcs.length } : Res ImportSt) ∧
      Thunk p3 p' d3 d' i j1 k1 (pi + k1.raw p.kind.ptr * l.funcs.length) (FT + k1.tab p.kind.ptr * l.funcs.length) 0 := by
    obtain ⟨z1, z2, -, -⟩ := idest hpi
    unfold ImportSt.endIat
    by_cases hn' : k1 = .none
    · rw [z1 hn']
      subst hn'
      exact ⟨p3, d3, rfl, Thunk.same⟩
    · rw [z2 hn', if_neg (by simp)]
      have := putIat_all (j := j1) (d := d3) (ps := ps + (l.name.length + 1) + (fnStrs l.funcs).length) (po := po + k2.raw p.kind.ptr * l.funcs.length)
        (pi := pi + k1.raw p.kind.ptr * l.funcs.length) (ft := FT + k1.tab p.kind.ptr * l.funcs.length)
        (oft := OT + k2.tab p.kind.ptr * l.funcs.length) (r3.valid hv) (by rw [r3.own]; exact hs) hpi hn' (by rw [hp3]; omega) (by omega)
        (fun h => by rw [hp3]; exact r3.room ((hr1 h).sub (by omega) (by have := w1.2.2.2.1 h; omega))) true (fun _ => rfl) 0
      rw [hp3] at this
      exact this
  have l4 := t4.mod.len
  have m4 := t4.mod
  have r4 := t4.ret
  have T4 := t4.tables
  rw [hp3] at m4 r4 T4
  have hp4 : p4.kind = p.kind := by rw [t4.ret.kind, hp3]
  have r34 := r3.trans r4
  obtain ⟨p5, d5, e5, t5⟩ := fnOrig_all (j := j2) (s := s) (d := d4) (t4.ret.valid (r3.valid hv)) (by rw [t4.ret.own, r3.own]; exact hs) hpo
    (ps := ps + (l.name.length + 1) + (fnStrs l.funcs).length)
    (pi := pi + k1.raw p.kind.ptr * l.funcs.length + k1.raw p.kind.ptr) (po := po + k2.raw p.kind.ptr * l.funcs.length)
    (ft := FT + k1.tab p.kind.ptr * l.funcs.length + k1.tab p.kind.ptr) (oft := OT + k2.tab p.kind.ptr * l.funcs.length)
    (by rw [hp4]; omega) (by omega)
    (fun h => by rw [hp4]; exact r34.room ((hr2 h).sub (by omega) (by have := w2.2.2.2.1 h; omega))) 0
  have m5 := t5.mod
  have r5 := t5.ret
  have T5 := t5.tables
  rw [hp4] at m5 r5 T5 e5
  have hil : (iatBytes p.kind.ptr (allB c l) va (ps + (l.name.length + 1)) l.funcs).length = p.kind.ptr * l.funcs.length := iatBytes_length _ _ _ _ _
  have hol : (lookBytes p.kind.ptr va (ps + (l.name.length + 1)) l.funcs).length = p.kind.ptr * l.funcs.length := lookBytes_length _ _ _ _
  generalize hL : p.kind.ptr * l.funcs.length = L at *
  generalize hWF : k1.raw p.kind.ptr * l.funcs.length = WF at *
  generalize hBF : k2.raw p.kind.ptr * l.funcs.length = BF at *
  generalize hWT : k1.tab p.kind.ptr * l.funcs.length = WT at *
  generalize hBT : k2.tab p.kind.ptr * l.funcs.length = BT at *
  refine ⟨p5, d5, FT + WT + k1.tab p.kind.ptr, OT + BT + k2.tab p.kind.ptr, ?_, ?_, ?_, ?_, ?_, ?_, ?_⟩
  · unfold ImportSt.putLib
    dsimp only
    rw [ho, hft, show w32 (va + ps) = va + ps by rw [w32, Nat.mod_eq_of_lt (by omega)], hdd, rawPut_withData hi e1, ok_bind,
      rawPut_withData hi e2, ok_bind, show w32 (ps + (l.name.length + 1)) = ps + (l.name.length + 1) by rw [w32, Nat.mod_eq_of_lt (by omega)],
      e3, ok_bind, e4, ok_bind, e5]
    refine congrArg Except.ok ?_
    simp only [ImportSt.mk.injEq, true_and, and_true]
    omega
  · refine at_append ?_ ?_
    · refine m5.at (m4.at (m3.at a2 ?_) ?_) ?_ <;> simp only [List.length_append, List.length_singleton] <;> intro j _ _ <;> omega
    · simp only [List.length_append, List.length_singleton]
      refine m5.at (m4.at b1 ?_) ?_ <;> intro j _ _ <;> omega
  · refine m5.at (m4.at (m3.at (m2.at a1 ?_) ?_) ?_) ?_ <;> rw [hddl] <;> intro j _ _ <;> omega
  · unfold allIat
    have x1 := b2.keep (i := i) m4 r4 (fun hk y _ _ => by have := w1.2.2.1 hk; omega) (fun hk y _ _ => by have := w1.2.2.2.1 hk; omega)
    have x2 := x1.keep (i := i) m5 r5 (fun hk y _ _ => by have := w1.2.2.1 hk; omega) (fun hk y _ _ => by
      by_cases hk2' : k2 = .old
      · have := hap hk hk2'; unfold TabsApart at this; dsimp only at this
        have := w2.2.2.2.1 hk2'
        omega
      · have := q2.2.2.2.2.2 hk2'; omega)
    have x3 := T4.keep (i := i) m5 r5 (fun hk y _ _ => by
        rw [leBytes_length] at *
        have := q1.2.2.1 hk
        omega) (fun hk y _ _ => by
      rw [leBytes_length] at *
      have := w1.2.2.2.1 hk
      by_cases hk2' : k2 = .old
      · have := hap hk hk2'; unfold TabsApart at this; dsimp only at this
        have := w2.2.2.2.1 hk2'
        omega
      · have := q2.2.2.2.2.2 hk2'; omega)
    exact x2.append hil (by rw [← u1.1, ← u1.2.1]; exact x3)
  · unfold allOrig
    have x1 := b3.keep (i := i) m4 r4 (fun hk y _ _ => by have := w2.2.2.1 hk; omega) (fun hk y _ _ => by
      by_cases hk2' : k1 = .old
      · have := hap hk2' hk; unfold TabsApart at this; dsimp only at this
        have := w1.2.2.2.1 hk2'
        omega
      · have := q1.2.2.2.2.2 hk2'; omega)
    have x2 := x1.keep (i := i) m5 r5 (fun hk y _ _ => by have := w2.2.2.1 hk; omega) (fun hk y _ _ => by have := w2.2.2.2.1 hk; omega)
    exact x2.append hol (by rw [← u2.1, ← u2.2.1]; exact T5)
  · exact Mod.mono ((((m1.trans m2).trans m3).trans m4).trans m5) (fun j hj => by omega)
  · exact Retabled.mono (r34.trans r5) (fun j hj => by omega)

/-! ### All libraries -/

/-- Bytes of new tables. -/
def tabI (c : ImportCfg) (n : Nat) : List ImportLib → Nat
  | [] => 0
  | l :: ls => (allI c l).raw (n * (l.funcs.length + 1)) + tabI c n ls
def tabO (c : ImportCfg) (n : Nat) : List ImportLib → Nat
  | [] => 0
  | l :: ls => (allO c l).raw (n * (l.funcs.length + 1)) + tabO c n ls

/-- The descriptors. -/
def allDescs (c : ImportCfg) (n va : Nat) : (ps pi po : Nat) → List ImportLib → Bytes
  | _, _, _, [] => zeros 20
  | ps, pi, po, l :: ls => importDescr (allOft c va po l) l.stamp (va + ps) (allFt c va pi l) ++
      allDescs c n va (ps + (libStr l).length) (pi + (allI c l).raw (n * (l.funcs.length + 1)))
        (po + (allO c l).raw (n * (l.funcs.length + 1))) ls

theorem allDescs_length (c : ImportCfg) (n va ps pi po : Nat) (ls : List ImportLib) :
    (allDescs c n va ps pi po ls).length = 20 * (ls.length + 1) := by
  induction ls generalizing ps pi po with
  | nil => simp [allDescs]
  | cons l ls ih => simp only [allDescs, List.length_append, importDescr_length, ih, List.length_cons]; omega

/-- The tables of all libraries are written. -/
def LibsDone (c : ImportCfg) (n va i : Nat) (p : Image) (m : Bytes) : (ps pi po : Nat) → List ImportLib → Prop
  | _, _, _, [] => True
  | ps, pi, po, l :: ls =>
    (∃ j, (allI c l = .old → TabRoom p i j (allFt c va pi l) (n * (l.funcs.length + 1))) ∧
      Tables p m j (allI c l) pi (allFt c va pi l) (allIat c n va ps l)) ∧
    (∃ j, (allO c l = .old → TabRoom p i j (allOft c va po l) (n * (l.funcs.length + 1))) ∧
      Tables p m j (allO c l) po (allOft c va po l) (allOrig n va ps l)) ∧
    LibsDone c n va i p m (ps + (libStr l).length) (pi + (allI c l).raw (n * (l.funcs.length + 1)))
      (po + (allO c l).raw (n * (l.funcs.length + 1))) ls

theorem LibsDone.map {c : ImportCfg} {n va i : Nat} {p : Image} {d m : Bytes} {fin : Nat}
    (h : ∀ o x, o + x.length ≤ fin → At d o x → At m o x) : ∀ {ls : List ImportLib} {ps pi po : Nat},
    LibsDone c n va i p d ps pi po ls → pi + tabI c n ls ≤ fin → po + tabO c n ls ≤ fin → LibsDone c n va i p m ps pi po ls := by
  intro ls
  induction ls with
  | nil => intro _ _ _ _ _ _; trivial
  | cons l ls ih =>
    intro ps pi po h1 h2 h3
    obtain ⟨⟨j, a0, a1⟩, ⟨j', b0, b1⟩, c1⟩ := h1
    simp only [tabI, tabO] at h2 h3
    refine ⟨⟨j, a0, fun hk => h _ _ ?_ (a1.raw hk), a1.tab⟩, ⟨j', b0, fun hk => h _ _ ?_ (b1.raw hk), b1.tab⟩, ih c1 (by omega) (by omega)⟩
    · rw [allIat_length]
      have := ((allI c l).le (n * (l.funcs.length + 1))).2.2.1 hk
      omega
    · rw [allOrig_length]
      have := ((allO c l).le (n * (l.funcs.length + 1))).2.2.1 hk
      omega

theorem allI_old {c : ImportCfg} {l : ImportLib} : allI c l = .old ↔ l.Kept c.save ∧ c.rewrite = true := by
  unfold allI
  by_cases h : l.Kept c.save
  · cases c.rewrite <;> simp [h]
  · simp [h]

theorem allO_old {c : ImportCfg} {l : ImportLib} : allO c l = .old ↔ l.Relooked c := by
  unfold allO
  by_cases h : l.Relooked c
  · simp [h]
  · by_cases h' : l.NewLook c <;> simp [h, h']

/-- The overwritten tables are the ones of the list. -/
theorem overwritten_mem {c : ImportCfg} {n va pi po : Nat} (l : ImportLib) :
    (allI c l = .old → (allFt c va pi l, n * (l.funcs.length + 1)) ∈ l.tables n c) ∧
    (allO c l = .old → (allOft c va po l, n * (l.funcs.length + 1)) ∈ l.tables n c) ∧
    (∀ t ∈ l.tables n c, (allI c l = .old ∧ t = (allFt c va pi l, n * (l.funcs.length + 1))) ∨
      (allO c l = .old ∧ t = (allOft c va po l, n * (l.funcs.length + 1)))) ∧
    ((l.tables n c).Pairwise TabsApart → allI c l = .old → allO c l = .old →
      TabsApart (allFt c va pi l, n * (l.funcs.length + 1)) (allOft c va po l, n * (l.funcs.length + 1))) := by
  rw [allI_old, allO_old]
  have h1 : l.Kept c.save → allFt c va pi l = l.rvaIat := fun h => by unfold allFt; rw [if_pos h]
  have h2 : l.Relooked c → allOft c va po l = l.rvaOrig := fun h => by
    unfold ImportLib.Relooked at h
    unfold allOft; rw [if_pos h.2.2.1, if_pos h.1, if_neg h.2.2.2]
  unfold ImportLib.tables
  refine ⟨fun h => ?_, fun h => ?_, fun t ht => ?_, fun hp a b => ?_⟩
  · rw [if_pos h, h1 h.1]; simp
  · rw [if_pos h, h2 h]; simp
  · rw [List.mem_append] at ht
    rcases ht with ht | ht
    · split at ht
      · next h => rw [List.mem_singleton] at ht; exact Or.inl ⟨h, by rw [h1 h.1]; exact ht⟩
      · simp at ht
    · split at ht
      · next h => rw [List.mem_singleton] at ht; exact Or.inr ⟨h, by rw [h2 h]; exact ht⟩
      · simp at ht
  · rw [if_pos a, if_pos b] at hp
    rw [h1 a.1, h2 b]
    have := (List.pairwise_append.mp hp).2.2
    exact this _ (List.mem_singleton.mpr rfl) _ (List.mem_singleton.mpr rfl)

theorem putLibs_all {i va n : Nat} {s : Sec} {c : ImportCfg} : ∀ (ls : List ImportLib) (p : Image) (d : Bytes) (ps pi po pd ft oft : Nat),
    ValidTable p → p.secs[i]? = some s → p.kind.ptr = n → va + d.length < 2 ^ 32 →
    ps + (libStrs ls).length ≤ pd → pd + 20 * (ls.length + 1) ≤ pi → pi + tabI c n ls ≤ po → po + tabO c n ls ≤ d.length →
    (∀ l ∈ ls, ∀ t ∈ l.tables n c, ∃ j, TabRoom p i j t.1 t.2) → (importTabs n c ls).Pairwise TabsApart →
    (∀ l ∈ ls, allI c l = .new → allB c l = false → ∀ f ∈ l.funcs, f.name ≠ []) →
    ∃ p' d' ft' oft', ImportSt.putLibs { img := p.withData i s d, str := ps, iat := pi, orig := po, ft := ft, oft := oft } c i va pd ls =
        (.ok { img := p'.withData i s d', str := ps + (libStrs ls).length, iat := pi + tabI c n ls, orig := po + tabO c n ls, ft := ft', oft := oft' } : Res ImportSt) ∧
      At d' ps (libStrs ls) ∧ At d' pd (allDescs c n va ps pi po ls) ∧ LibsDone c n va i p' d' ps pi po ls ∧
      Mod d d' (fun j => (ps ≤ j ∧ j < ps + (libStrs ls).length) ∨ (pd ≤ j ∧ j < pd + 20 * (ls.length + 1)) ∨
        (pi ≤ j ∧ j < pi + tabI c n ls) ∨ (po ≤ j ∧ j < po + tabO c n ls)) ∧
      Retabled p p' i (InTabs (importTabs n c ls)) := by
  intro ls
  induction ls with
  | nil =>
    intro p d ps pi po pd ft oft hv hs hp h0 h1 h2 h3 h4 _ _ _
    simp only [libStrs, tabI, tabO, List.length_nil, Nat.add_zero] at h1 h2 h3 h4 ⊢
    have hi : i < p.secs.length := (List.getElem?_eq_some_iff.mp hs).1
    obtain ⟨d1, e1, a1, m1⟩ := writeAt_mod (b := d) (o := pd) (x := zeros 20) (by rw [zeros_length]; omega)
    have l1 := m1.len
    rw [zeros_length] at m1
    refine ⟨p, d1, ft, oft, ?_, at_nil (by omega), a1, trivial, Mod.mono m1 (fun j hj => by omega), Retabled.refl _ _ _⟩
    rw [ImportSt.putLibs]
    dsimp only
    rw [rawPut_withData hi e1, ok_bind]
  | cons l ls ih =>
    intro p d ps pi po pd ft oft hv hs hp h0 h1 h2 h3 h4 h5 h6 h7
    simp only [libStrs, tabI, tabO, List.length_append, List.length_cons] at h1 h2 h3 h4 ⊢
    have hsplit : importTabs n c (l :: ls) = l.tables n c ++ importTabs n c ls := by unfold importTabs; rw [List.flatMap_cons]
    rw [hsplit] at h6 ⊢
    obtain ⟨g1, g2, g3⟩ := List.pairwise_append.mp h6
    obtain ⟨t1, t2, t3, t4⟩ := overwritten_mem (c := c) (n := n) (va := va) (pi := pi) (po := po) l
    have hex1 : ∃ j1, allI c l = .old → TabRoom p i j1 (allFt c va pi l) (n * (l.funcs.length + 1)) := by
      by_cases hk : allI c l = .old
      · obtain ⟨j, hj⟩ := h5 l List.mem_cons_self _ (t1 hk)
        exact ⟨j, fun _ => hj⟩
      · exact ⟨0, fun h => absurd h hk⟩
    have hex2 : ∃ j1, allO c l = .old → TabRoom p i j1 (allOft c va po l) (n * (l.funcs.length + 1)) := by
      by_cases hk : allO c l = .old
      · obtain ⟨j, hj⟩ := h5 l List.mem_cons_self _ (t2 hk)
        exact ⟨j, fun _ => hj⟩
      · exact ⟨0, fun h => absurd h hk⟩
    obtain ⟨j1, hj1⟩ := hex1
    obtain ⟨j2, hj2⟩ := hex2
    obtain ⟨p1, d1, ft1, oft1, e1, a1, a2, a3, a4, m1, r1⟩ := putLib_all (d := d) hv hs hp (va := va) (c := c) (ps := ps) (pi := pi) (po := po) (pd := pd)
      (ft := ft) (oft := oft) h0 l (by omega) (by omega) (by omega) (by omega) hj1 hj2 (t4 g1) (h7 l List.mem_cons_self)
    have l1 := m1.len
    obtain ⟨p2, d2, ft2, oft2, e2, b1, b2, b3, m2, r2⟩ := ih p1 d1 (ps + (libStr l).length) (pi + (allI c l).raw (n * (l.funcs.length + 1)))
      (po + (allO c l).raw (n * (l.funcs.length + 1))) (pd + 20) ft1 oft1 (r1.valid hv) (by rw [r1.own]; exact hs) (by rw [r1.kind]; exact hp)
      (by omega) (by omega) (by omega) (by omega) (by omega)
      (fun g hg t ht => by
        obtain ⟨j, hj⟩ := h5 g (List.mem_cons_of_mem _ hg) t ht
        exact ⟨j, r1.room hj⟩) g2
      (fun g hg => h7 g (List.mem_cons_of_mem _ hg))
    have v1 := (allI c l).le (n * (l.funcs.length + 1))
    have v2 := (allO c l).le (n * (l.funcs.length + 1))
    refine ⟨p2, d2, ft2, oft2, ?_, ?_, ?_, ⟨⟨j1, fun h => r2.room (r1.room (hj1 h)), ?_⟩, ⟨j2, fun h => r2.room (r1.room (hj2 h)), ?_⟩, b3⟩, ?_, ?_⟩
    · rw [ImportSt.putLibs, e1, ok_bind, show w32 (pd + 20) = pd + 20 by rw [w32, Nat.mod_eq_of_lt (by omega)], e2]
      refine congrArg Except.ok ?_
      simp only [ImportSt.mk.injEq, true_and, and_true]
      omega
    · refine at_append (m2.at a1 ?_) b1
      intro j _ _; omega
    · rw [allDescs]
      refine at_append (m2.at a2 ?_) (by rw [importDescr_length]; exact b2)
      rw [importDescr_length]; intro j _ _; omega
    · refine a3.keep (i := i) m2 r2 ?_ ?_
      · rw [allIat_length]; intro hk y _ _
        have := v1.2.2.1 hk
        omega
      · rw [allIat_length]; rintro hk y q1 q2 ⟨t, ht, q3, q4⟩
        have := g3 _ (t1 hk) t ht
        unfold TabsApart at this
        dsimp only at this
        omega
    · refine a4.keep (i := i) m2 r2 ?_ ?_
      · rw [allOrig_length]; intro hk y _ _
        have := v2.2.2.1 hk
        omega
      · rw [allOrig_length]; rintro hk y q1 q2 ⟨t, ht, q3, q4⟩
        have := g3 _ (t2 hk) t ht
        unfold TabsApart at this
        dsimp only at this
        omega
    · exact Mod.mono (m1.trans m2) (fun j hj => by omega)
    · refine Retabled.mono (r1.trans r2) (fun x hx => ?_)
      rcases hx with (⟨q1, q2⟩ | ⟨q1, q2⟩) | ⟨t, ht, q3⟩
      · have hk : allI c l = .old := by
          refine Decidable.byContradiction (fun h => ?_)
          have := v1.2.2.2.2.2 h
          omega
        have := v1.2.2.2.1 hk
        exact ⟨_, List.mem_append_left _ (t1 hk), q1, by dsimp only; omega⟩
      · have hk : allO c l = .old := by
          refine Decidable.byContradiction (fun h => ?_)
          have := v2.2.2.2.2.2 h
          omega
        have := v2.2.2.2.1 hk
        exact ⟨_, List.mem_append_left _ (t2 hk), q1, by dsimp only; omega⟩
      · exact ⟨t, List.mem_append_right _ ht, q3⟩

end PE
