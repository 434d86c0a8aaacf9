/-
Helper lemmas for the resource directory: what the writer leaves in the buffer.
-/
import Verif.Spec.Resources
import Verif.Lemmas.Mod
import Verif.Lemmas.Imports

namespace PE

/-! ### Sizes -/

theorem ResKey.space_eq (k : ResKey) : k.space = k.bytes := by
  cases k with
  | id n => rfl
  | name w => rw [ResKey.space, ResKey.bytes]; omega

mutual
theorem ResEntry.structs_eq : ∀ e : ResEntry, e.structs = e.tables
  | .empty _ => rfl
  | .data _ _ _ => rfl
  | .dir _ _ es => by rw [ResEntry.structs, ResEntry.tables, structsOf_eq es]; omega
theorem structsOf_eq : ∀ es : List ResEntry, structsOf es = 8 * es.length + tablesOf es
  | [] => rfl
  | e :: es => by rw [structsOf, tablesOf, e.structs_eq, structsOf_eq es, List.length_cons]; omega
end

mutual
theorem ResEntry.strings_eq : ∀ e : ResEntry, e.strings = e.names
  | .empty k => k.space_eq
  | .data k _ _ => k.space_eq
  | .dir k _ es => by rw [ResEntry.strings, ResEntry.names, stringsOf_eq es, k.space_eq]
theorem stringsOf_eq : ∀ es : List ResEntry, stringsOf es = namesIn es
  | [] => rfl
  | e :: es => by rw [stringsOf, namesIn, e.strings_eq, stringsOf_eq es]
end

mutual
theorem ResEntry.dataEnd_ge : ∀ (e : ResEntry) (pos : Nat), pos ≤ e.dataEnd pos
  | .empty _, pos => Nat.le_refl _
  | .data _ _ d, pos => by rw [ResEntry.dataEnd]; have := ceilTo_ge (x := pos) (a := 4) (by omega); omega
  | .dir _ _ es, pos => by rw [ResEntry.dataEnd]; exact dataEndOf_ge es pos
theorem dataEndOf_ge : ∀ (es : List ResEntry) (pos : Nat), pos ≤ dataEndOf es pos
  | [], pos => Nat.le_refl _
  | e :: es, pos => by rw [dataEndOf]; exact Nat.le_trans (e.dataEnd_ge pos) (dataEndOf_ge es _)
end

mutual
theorem ResEntry.dataPos_eq : ∀ (e : ResEntry) (pos : Nat), e.dataEnd pos < 4294967296 → e.dataPos pos = e.dataEnd pos
  | .empty _, pos, _ => rfl
  | .data _ _ d, pos, h => by
    rw [ResEntry.dataEnd] at h
    have hge := ceilTo_ge (x := pos) (a := 4) (by omega)
    rw [ResEntry.dataPos, ResEntry.dataEnd, alignUp_of_le pow2_4 (by omega) (by omega), sub32_of_le hge (by omega), w32, w32,
      Nat.mod_eq_of_lt (a := d.length + 16 + (ceilTo pos 4 - pos)) (by omega), Nat.mod_eq_of_lt (by omega)]
    omega
  | .dir _ _ es, pos, h => by
    rw [ResEntry.dataEnd] at h
    rw [ResEntry.dataPos, ResEntry.dataEnd, dataPosOf_eq es pos h]
theorem dataPosOf_eq : ∀ (es : List ResEntry) (pos : Nat), dataEndOf es pos < 4294967296 → dataPosOf es pos = dataEndOf es pos
  | [], pos, _ => rfl
  | e :: es, pos, h => by
    rw [dataEndOf] at h
    rw [dataPosOf, dataEndOf, e.dataPos_eq pos (Nat.lt_of_le_of_lt (dataEndOf_ge es _) h), dataPosOf_eq es _ h]
end

mutual
theorem ResEntry.complete_of_ok : ∀ e : ResEntry, e.Ok → e.complete = true
  | .empty _, h => h.elim
  | .data _ _ _, _ => rfl
  | .dir _ _ es, h => by rw [ResEntry.complete]; exact completeAll_of_ok es h.2.2
theorem completeAll_of_ok : ∀ es : List ResEntry, AllOk es → completeAll es = true
  | [], _ => rfl
  | e :: es, h => by rw [completeAll, e.complete_of_ok h.1, completeAll_of_ok es h.2]; rfl
end

theorem named_ids_sum (es : List ResEntry) : namedCount es + idCount es = es.length := by
  unfold namedCount idCount
  induction es with
  | nil => rfl
  | cons e es ih =>
    simp only [List.countP_cons, List.length_cons]
    cases e.isNamed <;> simp <;> omega

theorem countNamed_eq {es : List ResEntry} (h : namedCount es < 65536) : countNamed es = namedCount es := by
  unfold countNamed w16 namedCount at *
  rw [← List.countP_eq_length_filter, Nat.mod_eq_of_lt h]

theorem countIds_eq {es : List ResEntry} (h : idCount es < 65536) : countIds es = idCount es := by
  unfold countIds w16 idCount at *
  rw [← List.countP_eq_length_filter, Nat.mod_eq_of_lt h]

theorem DirOk.counts {h : ResHdr} {es : List ResEntry} (hd : DirOk h es) : countNamed es + countIds es = es.length := by
  rw [countNamed_eq hd.named, countIds_eq hd.ids, named_ids_sum]

theorem resHdrBytes_length (h : ResHdr) (es : List ResEntry) : (resHdrBytes h es).length = 16 := by
  unfold resHdrBytes; rw [encFields_length]; rfl

theorem resDataHdr_length (a b c : Nat) : (resDataHdr a b c).length = 16 := by
  unfold resDataHdr; rw [encFields_length]; rfl

theorem encUnits_length (w : WStr) : (encUnits w).length = 2 * w.length := by
  unfold encUnits
  induction w with
  | nil => rfl
  | cons c w ih => rw [List.flatMap_cons, List.length_append, ih, leBytes_length, List.length_cons]; omega

/-! ### The layout -/

/-- The stored name. -/
def ResKey.enc : ResKey → Bytes
  | .id _ => []
  | .name w => leBytes 2 w.length ++ (encUnits w ++ leBytes 2 0)

theorem ResKey.enc_length (k : ResKey) : k.enc.length = k.bytes := by
  cases k with
  | id n => rfl
  | name w =>
    rw [ResKey.enc, ResKey.bytes, List.length_append, List.length_append, encUnits_length, leBytes_length, leBytes_length]; omega

/-- The field `Name`. -/
def ResKey.field (off : Nat) : ResKey → Nat
  | .id n => n
  | .name _ => 2147483648 + off

/-- The two fields of an entry. -/
def entBytes (a b : Nat) : Bytes := encFields [(4, a), (4, b)]

theorem entBytes_length (a b : Nat) : (entBytes a b).length = 8 := by
  unfold entBytes; rw [encFields_length]; rfl

mutual
/-- The entry stands in the buffer `m`: its record at `tp`, the tables below it from `sp`, the names from `np` and the data
    from `dp` on. -/
def ResEntry.Laid (m : Bytes) (va base : Nat) : ResEntry → Nat → Nat → Nat → Nat → Prop
  | .empty _, _, _, _, _ => False
  | .data k cp x, tp, _, np, dp => At m tp (entBytes (k.field (np - base)) (ceilTo dp 4 - base)) ∧ At m np k.enc ∧
      At m (ceilTo dp 4) (resDataHdr (va + (ceilTo dp 4 + 16)) x.length cp) ∧ At m (ceilTo dp 4 + 16) x
  | .dir k h es, tp, sp, np, dp => At m tp (entBytes (k.field (np - base)) (2147483648 + (sp - base))) ∧ At m np k.enc ∧
      At m sp (resHdrBytes h es) ∧ LaidAll m va base es (sp + 16) (sp + 16 + 8 * es.length) (np + k.bytes) dp
/-- The same for the entries of a directory. -/
def LaidAll (m : Bytes) (va base : Nat) : List ResEntry → Nat → Nat → Nat → Nat → Prop
  | [], _, _, _, _ => True
  | e :: es, tp, sp, np, dp => e.Laid m va base tp sp np dp ∧
      LaidAll m va base es (tp + 8) (sp + e.tables) (np + e.names) (e.dataEnd dp)
end

/-- The bytes of an entry with the given sizes. -/
def Area (t : Nat) (tp sp sn np nn dp de : Nat) (i : Nat) : Prop :=
  (tp ≤ i ∧ i < tp + t) ∨ (sp ≤ i ∧ i < sp + sn) ∨ (np ≤ i ∧ i < np + nn) ∨ (dp ≤ i ∧ i < de)

mutual
theorem ResEntry.Laid.frame {m m' : Bytes} {va base : Nat} {S : Nat → Prop} (hm : Mod m m' S) : ∀ (e : ResEntry) (tp sp np dp : Nat),
    e.Laid m va base tp sp np dp → (∀ i, Area 8 tp sp e.tables np e.names dp (e.dataEnd dp) i → ¬ S i) →
    e.Laid m' va base tp sp np dp
  | .empty _, _, _, _, _, h, _ => h
  | .data k cp x, tp, sp, np, dp, h, hs => by
    rw [ResEntry.Laid] at h ⊢
    have hc := ceilTo_ge (x := dp) (a := 4) (by omega)
    obtain ⟨h1, h2, h3, h4⟩ := h
    refine ⟨hm.at h1 fun i a b => hs i ?_, hm.at h2 fun i a b => hs i ?_, hm.at h3 fun i a b => hs i ?_,
      hm.at h4 fun i a b => hs i ?_⟩
    · rw [entBytes_length] at b; exact Or.inl ⟨a, b⟩
    · rw [k.enc_length] at b; exact Or.inr (Or.inr (Or.inl ⟨a, by rw [ResEntry.names]; exact b⟩))
    · rw [resDataHdr_length] at b; exact Or.inr (Or.inr (Or.inr ⟨by omega, by rw [ResEntry.dataEnd]; omega⟩))
    · exact Or.inr (Or.inr (Or.inr ⟨by omega, by rw [ResEntry.dataEnd]; omega⟩))
  | .dir k h es, tp, sp, np, dp, hl, hs => by
    rw [ResEntry.Laid] at hl ⊢
    obtain ⟨h1, h2, h3, h4⟩ := hl
    refine ⟨hm.at h1 fun i a b => hs i ?_, hm.at h2 fun i a b => hs i ?_, hm.at h3 fun i a b => hs i ?_,
      LaidAll.frame hm es _ _ _ _ h4 fun i hi => hs i ?_⟩
    · rw [entBytes_length] at b; exact Or.inl ⟨a, b⟩
    · rw [k.enc_length] at b; exact Or.inr (Or.inr (Or.inl ⟨a, by rw [ResEntry.names]; omega⟩))
    · rw [resHdrBytes_length] at b; exact Or.inr (Or.inl ⟨a, by rw [ResEntry.tables]; omega⟩)
    · rw [ResEntry.tables, ResEntry.names, ResEntry.dataEnd]
      unfold Area at hi ⊢
      omega
theorem LaidAll.frame {m m' : Bytes} {va base : Nat} {S : Nat → Prop} (hm : Mod m m' S) : ∀ (es : List ResEntry) (tp sp np dp : Nat),
    LaidAll m va base es tp sp np dp →
    (∀ i, Area (8 * es.length) tp sp (tablesOf es) np (namesIn es) dp (dataEndOf es dp) i → ¬ S i) →
    LaidAll m' va base es tp sp np dp
  | [], _, _, _, _, _, _ => trivial
  | e :: es, tp, sp, np, dp, h, hs => by
    rw [LaidAll] at h ⊢
    have a1 := e.dataEnd_ge dp
    have a2 := dataEndOf_ge es (e.dataEnd dp)
    refine ⟨ResEntry.Laid.frame hm e _ _ _ _ h.1 fun i hi => hs i ?_, LaidAll.frame hm es _ _ _ _ h.2 fun i hi => hs i ?_⟩
    · rw [tablesOf, namesIn, dataEndOf, List.length_cons]
      unfold Area at hi ⊢
      omega
    · rw [tablesOf, namesIn, dataEndOf, List.length_cons]
      unfold Area at hi ⊢
      omega
end

/-! ### The writer -/

theorem isUcs2_iff (c : Nat) : isUcs2 c = true ↔ c < 0xD800 ∨ (0xE000 ≤ c ∧ c < 0x10000) := by
  unfold isUcs2; simp

theorem toUcs2_ok {w : WStr} (h : ∀ c ∈ w, c < 0xD800 ∨ (0xE000 ≤ c ∧ c < 0x10000)) : toUcs2 w = .ok w := by
  unfold toUcs2
  rw [if_pos]
  rw [List.all_eq_true]
  exact fun c hc => (isUcs2_iff c).mpr (h c hc)

theorem or_top {x : Nat} (h : x < 2147483648) : 2147483648 ||| x = 2147483648 + x := by
  have := Nat.two_pow_add_eq_or_of_lt (i := 31) (b := x) (by omega) 1
  rw [Nat.mul_one] at this
  exact this.symm

theorem putName_spec {base np : Nat} {k : ResKey} {d : Bytes} (hk : k.Ok) (hb : base ≤ np) (hn : np + k.bytes ≤ d.length)
    (h32 : d.length < 4294967296) (hr : np < base + 2147483648) :
    ∃ d', putName base k d np = .ok (d', np + k.bytes, k.field (np - base)) ∧ At d' np k.enc ∧
      Mod d d' (fun i => np ≤ i ∧ i < np + k.bytes) := by
  cases k with
  | id n => exact ⟨d, rfl, ⟨by simpa [ResKey.enc, ResKey.bytes] using hn, by simp [ResKey.enc, slice]⟩, Mod.refl _ _⟩
  | name w =>
    rw [ResKey.bytes] at hn ⊢
    obtain ⟨d1, e1, a1, m1⟩ := writeAt_mod (b := d) (x := leBytes 2 w.length) (o := np) (by rw [leBytes_length]; omega)
    have l1 := m1.len
    obtain ⟨d2, e2, a2, m2⟩ := writeAt_mod (b := d1) (x := encUnits w ++ leBytes 2 0) (o := np + 2) (by
      rw [List.length_append, encUnits_length, leBytes_length]; omega)
    refine ⟨d2, ?_, ?_, ?_⟩
    · unfold putName
      dsimp only
      rw [e1, ok_bind, toUcs2_ok hk.2, ok_bind, w32, Nat.mod_eq_of_lt (by omega), e2, ok_bind, sub32_of_le hb (by omega),
        or_top (by omega), w32, Nat.mod_eq_of_lt (by omega), show np + 2 + (w.length * 2 + 2) = np + (2 + 2 * w.length + 2) by omega]
      rfl
    · rw [ResKey.enc]
      refine at_append (m2.at a1 fun i h1 h2 => ?_) (by rw [leBytes_length]; exact a2)
      rw [leBytes_length] at h2
      omega
    · refine (m1.trans m2).mono fun i hi => ?_
      rw [leBytes_length, List.length_append, encUnits_length, leBytes_length] at hi
      omega

mutual
theorem ResEntry.put_spec {va base : Nat} : ∀ (e : ResEntry) (d : Bytes) (tp sp np dp : Nat), e.Ok → va + d.length < 4294967296 →
    base ≤ tp → tp + 8 ≤ sp → sp + e.tables ≤ np → np + e.names ≤ dp → e.dataEnd dp ≤ d.length →
    e.dataEnd dp < base + 2147483648 →
    ∃ d', e.put va base d tp ⟨sp, np, dp⟩ = .ok (d', ⟨sp + e.tables, np + e.names, e.dataEnd dp⟩) ∧
      e.Laid d' va base tp sp np dp ∧ Mod d d' (Area 8 tp sp e.tables np e.names dp (e.dataEnd dp))
  | .empty _, _, _, _, _, _, h, _, _, _, _, _, _, _ => h.elim
  | .data k cp x, d, tp, sp, np, dp, hok, hva, hb, h1, h2, h3, h4, h5 => by
    rw [ResEntry.tables] at h2
    rw [ResEntry.names] at h3
    rw [ResEntry.dataEnd] at h4 h5
    have hc := ceilTo_ge (x := dp) (a := 4) (by omega)
    obtain ⟨d1, e1, a1, m1⟩ := putName_spec (base := base) (np := np) (d := d) hok.1 (by omega) (by omega) (by omega) (by omega)
    have l1 := m1.len
    obtain ⟨d2, e2, a2, m2⟩ := writeAt_mod (b := d1) (x := resDataHdr (va + (ceilTo dp 4 + 16)) x.length cp) (o := ceilTo dp 4)
      (by rw [resDataHdr_length]; omega)
    have l2 := m2.len
    obtain ⟨d3, e3, a3, m3⟩ := writeAt_mod (b := d2) (x := x) (o := ceilTo dp 4 + 16) (by omega)
    have l3 := m3.len
    obtain ⟨d4, e4, a4, m4⟩ := writeAt_mod (b := d3) (x := entBytes (k.field (np - base)) (ceilTo dp 4 - base)) (o := tp)
      (by rw [entBytes_length]; omega)
    rw [resDataHdr_length] at m2
    rw [entBytes_length] at m4
    refine ⟨d4, ?_, ?_, ?_⟩
    · rw [ResEntry.put, e1, ok_bind]
      dsimp only
      rw [alignUp_of_le pow2_4 (by omega) (by omega), w32, w32, w32, w32, Nat.mod_eq_of_lt (a := ceilTo dp 4 + 16) (by omega),
        Nat.mod_eq_of_lt (a := va + (ceilTo dp 4 + 16)) (by omega), Nat.mod_eq_of_lt (a := x.length) (by omega), e2, ok_bind,
        List.take_length, e3, ok_bind, sub32_of_le (by omega) (by omega)]
      unfold entBytes at e4
      rw [e4, ok_bind, Nat.mod_eq_of_lt (by omega), ResEntry.tables, ResEntry.names, ResEntry.dataEnd]
      rfl
    · rw [ResEntry.Laid]
      refine ⟨a4, m4.at (m3.at (m2.at a1 ?_) ?_) ?_, m4.at (m3.at a2 ?_) ?_, m4.at a3 ?_⟩ <;> intro i hi1 hi2
      · rw [k.enc_length] at hi2; omega
      · rw [k.enc_length] at hi2; omega
      · rw [k.enc_length] at hi2; omega
      · rw [resDataHdr_length] at hi2; omega
      · rw [resDataHdr_length] at hi2; omega
      · omega
    · refine (((m1.trans m2).trans m3).trans m4).mono fun i hi => ?_
      rw [ResEntry.tables, ResEntry.names, ResEntry.dataEnd]
      unfold Area
      omega
  | .dir k h es, d, tp, sp, np, dp, hok, hva, hb, h1, h2, h3, h4, h5 => by
    rw [ResEntry.tables] at h2
    rw [ResEntry.names] at h3
    rw [ResEntry.dataEnd] at h4 h5
    have hge := dataEndOf_ge es dp
    obtain ⟨d1, e1, a1, m1⟩ := putName_spec (base := base) (np := np) (d := d) hok.1 (by omega) (by omega) (by omega) (by omega)
    have l1 := m1.len
    obtain ⟨d2, e2, a2, m2⟩ := writeAt_mod (b := d1) (x := entBytes (k.field (np - base)) (2147483648 + (sp - base))) (o := tp)
      (by rw [entBytes_length]; omega)
    have l2 := m2.len
    obtain ⟨d3, e3, a3, m3⟩ := writeAt_mod (b := d2) (x := resHdrBytes h es) (o := sp) (by rw [resHdrBytes_length]; omega)
    have l3 := m3.len
    rw [entBytes_length] at m2
    rw [resHdrBytes_length] at m3
    obtain ⟨d4, e4, a4, m4⟩ := putEntries_spec (va := va) (base := base) es d3 (sp + 16) (sp + 16 + 8 * es.length) (np + k.bytes) dp hok.2.2 (by omega) (by omega)
      (by omega) (by omega) (by omega) (by omega) (by omega)
    refine ⟨d4, ?_, ?_, ?_⟩
    · rw [ResEntry.put, e1, ok_bind]
      dsimp only
      unfold entBytes at e2
      rw [sub32_of_le (a := sp) (by omega) (by omega), or_top (by omega), e2, ok_bind, e3, ok_bind, hok.2.1.counts, w32, w32,
        Nat.mod_eq_of_lt (a := sp + 16) (by omega), Nat.mod_eq_of_lt (by omega), e4, ResEntry.tables, ResEntry.names, ResEntry.dataEnd,
        show sp + 16 + 8 * es.length + tablesOf es = sp + (16 + 8 * es.length + tablesOf es) by omega, Nat.add_assoc np]
    · rw [ResEntry.Laid]
      refine ⟨m4.at (m3.at a2 ?_) ?_, m4.at (m3.at (m2.at a1 ?_) ?_) ?_, m4.at a3 ?_, a4⟩ <;> intro i hi1 hi2
      · rw [entBytes_length] at hi2; omega
      · rw [entBytes_length] at hi2; unfold Area; omega
      · rw [k.enc_length] at hi2; omega
      · rw [k.enc_length] at hi2; omega
      · rw [k.enc_length] at hi2; unfold Area; omega
      · rw [resHdrBytes_length] at hi2; unfold Area; omega
    · refine (((m1.trans m2).trans m3).trans m4).mono fun i hi => ?_
      rw [ResEntry.tables, ResEntry.names, ResEntry.dataEnd]
      unfold Area at hi ⊢
      omega
theorem putEntries_spec {va base : Nat} : ∀ (es : List ResEntry) (d : Bytes) (tp sp np dp : Nat), AllOk es → va + d.length < 4294967296 →
    base ≤ tp → tp + 8 * es.length ≤ sp → sp + tablesOf es ≤ np → np + namesIn es ≤ dp → dataEndOf es dp ≤ d.length →
    dataEndOf es dp < base + 2147483648 →
    ∃ d', putEntries va base es d tp ⟨sp, np, dp⟩ = .ok (d', ⟨sp + tablesOf es, np + namesIn es, dataEndOf es dp⟩) ∧
      LaidAll d' va base es tp sp np dp ∧
      Mod d d' (Area (8 * es.length) tp sp (tablesOf es) np (namesIn es) dp (dataEndOf es dp))
  | [], d, _, _, _, _, _, _, _, _, _, _, _, _ => ⟨d, rfl, trivial, Mod.refl _ _⟩
  | e :: es, d, tp, sp, np, dp, hok, hva, hb, h1, h2, h3, h4, h5 => by
    rw [tablesOf] at h2
    rw [namesIn] at h3
    rw [dataEndOf] at h4 h5
    rw [List.length_cons] at h1
    have g1 := e.dataEnd_ge dp
    have g2 := dataEndOf_ge es (e.dataEnd dp)
    obtain ⟨d1, e1, a1, m1⟩ := ResEntry.put_spec (va := va) (base := base) e d tp sp np dp hok.1 hva hb (by omega) (by omega) (by omega) (by omega) (by omega)
    have l1 := m1.len
    obtain ⟨d2, e2, a2, m2⟩ := putEntries_spec (va := va) (base := base) es d1 (tp + 8) (sp + e.tables) (np + e.names) (e.dataEnd dp) hok.2 (by omega) (by omega)
      (by omega) (by omega) (by omega) (by omega) (by omega)
    refine ⟨d2, ?_, ?_, ?_⟩
    · rw [putEntries, e1, ok_bind]
      dsimp only
      rw [w32, Nat.mod_eq_of_lt (by omega), e2, tablesOf, namesIn, dataEndOf, Nat.add_assoc sp, Nat.add_assoc np]
    · rw [LaidAll]
      refine ⟨ResEntry.Laid.frame m2 e _ _ _ _ a1 fun i hi => ?_, a2⟩
      unfold Area at hi ⊢
      omega
    · refine (m1.trans m2).mono fun i hi => ?_
      rw [tablesOf, namesIn, dataEndOf, List.length_cons]
      unfold Area at hi ⊢
      omega
end

end PE
