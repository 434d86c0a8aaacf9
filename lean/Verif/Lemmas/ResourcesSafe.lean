/-
Helper lemmas for the resource directory: termination of the reader, bounds of the writer, for arbitrary data.
-/
import Verif.Lemmas.ResourcesSort
import Verif.Props.BoundImport

namespace PE

theorem nodup_bound {l : List Nat} {n : Nat} (hn : l.Nodup) (h : ∀ x ∈ l, x < n) : l.length ≤ n := by
  induction n generalizing l with
  | zero =>
    cases l with
    | nil => simp
    | cons x l => have := h x (by simp); omega
  | succ n ih =>
    have h1 := ih (l := l.erase n) (hn.erase n) (fun x hx => by
      have h1 := (hn.mem_erase_iff).mp hx
      have := h x h1.2
      have := h1.1
      omega)
    have := List.length_erase (a := n) (l := l)
    split at this <;> omega

/-- The only undefined behaviour that can happen is of the kinds `B`. -/
def Only {α : Type} (B : UB → Prop) (x : Res α) : Prop := ∀ u, x = .error (.ub u) → B u

theorem Only.of_noUB {α : Type} {B : UB → Prop} {x : Res α} (h : NoUB x) : Only B x := fun u hu => absurd hu (h u)

theorem Only.ok {α : Type} {B : UB → Prop} (a : α) : Only B (.ok a : Res α) := Only.of_noUB (NoUB.ok a)

theorem Only.bind {α β : Type} {B : UB → Prop} {x : Res α} {f : α → Res β} (hx : Only B x) (hf : ∀ a, x = .ok a → Only B (f a)) :
    Only B (x >>= f) := by
  cases h : x with
  | ok a => exact hf a h
  | error e =>
    intro u hu
    refine hx u ?_
    have hu : (Except.error e : Res β) = .error (.ub u) := hu
    injection hu with hu
    rw [h, hu]

theorem fromUcs2_noUB (w : WStr) : NoUB (fromUcs2 w) := by
  unfold fromUcs2
  split
  · exact NoUB.ok _
  · exact NoUB.throwE _

theorem toUcs2_noUB (w : WStr) : NoUB (toUcs2 w) := by
  unfold toUcs2
  split
  · exact NoUB.ok _
  · exact NoUB.throwE _

theorem readN_only {b : Bytes} {o n : Nat} : Only (fun u => u = .oobRead) (readN b o n) := by
  unfold readN
  split
  · exact Only.ok _
  · intro u hu
    unfold ubE at hu
    injection hu with hu
    injection hu with hu
    exact hu.symm

theorem resName_only (p : Image) (res off : Nat) : Only (fun u => u = .oobRead) (p.resName res off) := by
  unfold Image.resName
  refine Only.bind (Only.of_noUB (NoUB.throwIf _ _)) fun _ _ => Only.bind (Only.of_noUB (readInt_noUB _ _ _ _ _)) fun len _ =>
    Only.bind (Only.of_noUB (dataLenFrom_noUB _ _ _ _ _)) fun avail _ => Only.bind (Only.of_noUB (NoUB.throwIf _ _)) fun _ _ =>
    Only.bind (Only.of_noUB (ptrFromRva_noUB _ _ _ _)) fun bo _ => ?_
  exact Only.bind readN_only fun x _ => Only.of_noUB (fromUcs2_noUB _)

theorem ptr_le {p : Image} {rva o : Nat} {b : Bytes} {hdrs : Bool} (h : p.ptrFromRva rva .virt hdrs = .ok (b, o)) : o ≤ b.length := by
  unfold Image.ptrFromRva at h
  split at h
  · next hc => cases h; exact Nat.le_of_lt hc.2
  · obtain ⟨s, hs, h⟩ := bind_ok_iff.mp h
    have hc := (sectionFromRva_mem hs).2
    unfold Sec.containsRva at hc
    rw [Bool.and_eq_true, decide_eq_true_eq, decide_eq_true_eq] at hc
    have hm : w32 (s.va + s.alignedVS p.nt.secAlign) ≤ s.va + s.alignedVS p.nt.secAlign := Nat.mod_le _ _
    cases h
    show rva - s.va ≤ (s.virt p.nt.secAlign).length
    unfold Sec.virt
    rw [List.length_append, zeros_length]
    omega

/-- Names are read safely if their length in bytes (not only in characters) fits. -/
theorem resName_noUB {p : Image} {res off : Nat} (h : ∀ len avail, p.readInt 2 (w32 (res + off)) .virt true = .ok len →
    p.dataLenFrom (w32 (res + off + 2)) (w32 (res + off + 2)) .virt true = .ok avail → len ≤ avail → 2 * len ≤ avail) :
    NoUB (p.resName res off) := by
  unfold Image.resName
  refine NoUB.bind (NoUB.throwIf _ _) fun _ _ => NoUB.bind (readInt_noUB _ _ _ _ _) fun len hlen =>
    NoUB.bind (dataLenFrom_noUB _ _ _ _ _) fun avail hav => NoUB.bind (NoUB.throwIf _ _) fun _ ht =>
    NoUB.bind (ptrFromRva_noUB _ _ _ _) fun bo hbo => ?_
  obtain ⟨b, o⟩ := bo
  have h1 := dataLen_ptr _ _ hav hbo
  rw [List.length_drop] at h1
  have h2 := h len avail hlen hav (Nat.le_of_not_lt fun hc => by rw [throwIf_pos hc] at ht; cases ht)
  dsimp only
  have h3 := ptr_le hbo
  rw [readN_ok (by omega)]
  exact fromUcs2_noUB _

theorem resData_noUB (p : Image) (res off : Nat) : NoUB (p.resData res off) := by
  unfold Image.resData
  refine NoUB.bind (readT_noUB _ _ _ _ _) fun de _ => NoUB.bind (dataLenFrom_noUB _ _ _ _ _) fun avail hav =>
    NoUB.bind (NoUB.throwIf _ _) fun _ ht => NoUB.bind (ptrFromRva_noUB _ _ _ _) fun bo hbo => ?_
  obtain ⟨b, o⟩ := bo
  have h1 := dataLen_ptr _ _ hav hbo
  rw [List.length_drop] at h1
  have h2 : rd 4 de 4 ≤ avail := Nat.le_of_not_lt fun hc => by rw [throwIf_pos hc] at ht; cases ht
  have h3 := ptr_le hbo
  dsimp only
  rw [readN_ok (by omega)]
  exact NoUB.ok _

/-- The offsets already visited. -/
structure SeenOk (seen : List Nat) : Prop where
  nodup : seen.Nodup
  lt : ∀ o ∈ seen, o < 2147483648

theorem SeenOk.len {seen : List Nat} (h : SeenOk seen) : seen.length ≤ 2147483648 := nodup_bound h.nodup h.lt

/-- What a reader with the visited offsets as state may do. -/
def SeenSafe {α : Type} (B : UB → Prop) (seen : List Nat) (x : Res (α × List Nat)) : Prop :=
  Only B x ∧ ∀ a seen', x = .ok (a, seen') → SeenOk seen' ∧ seen.length ≤ seen'.length

theorem SeenSafe.bind {α β : Type} {B : UB → Prop} {seen : List Nat} {x : Res (α × List Nat)} {f : α × List Nat → Res (β × List Nat)}
    (hx : SeenSafe B seen x) (hf : ∀ a seen', SeenOk seen' → seen.length ≤ seen'.length → SeenSafe B seen' (f (a, seen'))) :
    SeenSafe B seen (x >>= f) := by
  refine ⟨Only.bind hx.1 fun a ha => ?_, fun b seen' hb => ?_⟩
  · obtain ⟨a, s⟩ := a
    obtain ⟨h1, h2⟩ := hx.2 a s ha
    exact (hf a s h1 h2).1
  · obtain ⟨⟨a, s⟩, ha, hb⟩ := bind_ok_iff.mp hb
    obtain ⟨h1, h2⟩ := hx.2 a s ha
    obtain ⟨h3, h4⟩ := (hf a s h1 h2).2 b seen' hb
    exact ⟨h3, by omega⟩

theorem SeenSafe.pre {α β : Type} {B : UB → Prop} {seen : List Nat} {x : Res α} {f : α → Res (β × List Nat)}
    (hx : Only B x) (hf : ∀ a, x = .ok a → SeenSafe B seen (f a)) : SeenSafe B seen (x >>= f) := by
  refine ⟨Only.bind hx fun a ha => (hf a ha).1, fun b seen' hb => ?_⟩
  obtain ⟨a, ha, hb⟩ := bind_ok_iff.mp hb
  exact (hf a ha).2 b seen' hb

theorem SeenSafe.ok {α : Type} {B : UB → Prop} {seen : List Nat} (h : SeenOk seen) (a : α) : SeenSafe B seen (.ok (a, seen)) :=
  ⟨Only.ok _, fun _ _ e => by cases e; exact ⟨h, Nat.le_refl _⟩⟩

theorem resKey_only {B : UB → Prop} {p : Image} {res : Nat} (hB : ∀ off, Only B (p.resName res off)) (e : Bytes) : Only B (p.resKey res e) := by
  unfold Image.resKey
  split
  · exact Only.bind (hB _) fun _ _ => Only.ok _
  · exact Only.ok _

theorem resEntry_safe {B : UB → Prop} {p : Image} {res : Nat} (hB : ∀ off, Only B (p.resName res off))
    {sub : Nat → List Nat → Res (ResDir × List Nat)} {n : Nat}
    (hs : ∀ off seen, off < 2147483648 → SeenOk seen → n ≤ seen.length → SeenSafe B seen (sub off seen)) (pos : Nat) (seen : List Nat)
    (hk : SeenOk seen) (hn : n ≤ seen.length) : SeenSafe B seen (p.resEntry res sub pos seen) := by
  unfold Image.resEntry
  refine SeenSafe.pre (Only.of_noUB (readT_noUB _ _ _ _ _)) fun e _ => SeenSafe.pre (resKey_only hB e) fun k _ => ?_
  have hlt := rd_lt 4 e 4
  split
  · refine SeenSafe.bind (hs _ _ (by omega) hk hn) fun r seen' h1 h2 => ?_
    exact SeenSafe.ok h1 _
  · refine SeenSafe.pre (Only.of_noUB (resData_noUB _ _ _)) fun x _ => ?_
    exact SeenSafe.ok hk _

theorem resEntries_safe {B : UB → Prop} {p : Image} {res off : Nat} (hB : ∀ off, Only B (p.resName res off))
    {sub : Nat → List Nat → Res (ResDir × List Nat)} {n : Nat}
    (hs : ∀ off seen, off < 2147483648 → SeenOk seen → n ≤ seen.length → SeenSafe B seen (sub off seen)) (k : Nat) : ∀ (i : Nat) (r : ResDir)
    (seen : List Nat), SeenOk seen → n ≤ seen.length → SeenSafe B seen (p.resEntries res off sub k i r seen) := by
  induction k with
  | zero => intro i r seen hk _; exact SeenSafe.ok hk _
  | succ k ih =>
    intro i r seen hk hn
    rw [Image.resEntries]
    refine SeenSafe.bind (resEntry_safe hB hs _ _ hk hn) fun e seen' h1 h2 => ?_
    exact ih _ _ _ h1 (by omega)

/-- Each directory adds a new offset below 2^31, so the depth is limited. -/
theorem resDir_safe {B : UB → Prop} {p : Image} {res : Nat} (hB : ∀ off, Only B (p.resName res off)) (fuel : Nat) : ∀ (off : Nat)
    (seen : List Nat), off < 2147483648 → SeenOk seen → 2147483649 ≤ fuel + seen.length →
    SeenSafe B seen (p.resDir res fuel off seen) := by
  induction fuel with
  | zero => intro off seen _ hk hf; have := hk.len; omega
  | succ fuel ih =>
    intro off seen ho hk hf
    rw [Image.resDir]
    refine SeenSafe.pre (Only.of_noUB (NoUB.throwIf _ _)) fun _ hm => SeenSafe.pre (Only.of_noUB (NoUB.throwIf _ _)) fun _ _ =>
      SeenSafe.pre (Only.of_noUB (readT_noUB _ _ _ _ _)) fun d _ => SeenSafe.pre (Only.of_noUB (NoUB.throwIf _ _)) fun _ _ => ?_
    have hm : off ∉ seen := fun hc => by rw [throwIf_pos hc] at hm; cases hm
    have hk' : SeenOk (off :: seen) := ⟨List.nodup_cons.mpr ⟨hm, hk.nodup⟩, fun o h => by
      rcases List.mem_cons.mp h with rfl | h
      · exact ho
      · exact hk.lt o h⟩
    have := resEntries_safe (off := off) (n := seen.length + 1) hB (fun off' seen' h1 h2 h3 => ih off' seen' h1 h2 (by omega))
      (rd 2 d 14 + rd 2 d 12) 0 { h := { chars := rd 4 d 0, stamp := rd 4 d 4, major := rd 2 d 8, minor := rd 2 d 10 } } (off :: seen) hk'
      (by simp)
    refine ⟨this.1, fun a s' hs' => ?_⟩
    obtain ⟨h1, h2⟩ := this.2 a s' hs'
    rw [List.length_cons] at h2
    exact ⟨h1, by omega⟩

/-! ### The writer stays inside -/

mutual
theorem ResEntry.dataEnd_mono : ∀ (e : ResEntry) {a b : Nat}, a ≤ b → e.dataEnd a ≤ e.dataEnd b
  | .empty _, _, _, h => h
  | .data _ _ d, a, b, h => by
    rw [ResEntry.dataEnd, ResEntry.dataEnd]
    have := ceilTo_mono (a := 4) (by omega) h
    omega
  | .dir _ _ es, a, b, h => by rw [ResEntry.dataEnd, ResEntry.dataEnd]; exact dataEndOf_mono es h
theorem dataEndOf_mono : ∀ (es : List ResEntry) {a b : Nat}, a ≤ b → dataEndOf es a ≤ dataEndOf es b
  | [], _, _, h => h
  | e :: es, a, b, h => by rw [dataEndOf, dataEndOf]; exact dataEndOf_mono es (e.dataEnd_mono h)
end

theorem writeAt_length {b d c : Bytes} {o : Nat} (h : writeAt b o d = .ok c) : c.length = b.length := by
  unfold writeAt at h
  split at h
  · cases h; exact patch_length (by assumption)
  · cases h

theorem writeAt_noUB {b d : Bytes} {o : Nat} (h : o + d.length ≤ b.length) : NoUB (writeAt b o d) := by
  unfold writeAt
  rw [if_pos h]
  exact NoUB.ok _

theorem putName_safe {base np L : Nat} {k : ResKey} {d : Bytes} (h1 : np + k.bytes ≤ L) (hL : L ≤ d.length) (h32 : L < 4294967296) :
    NoUB (putName base k d np) ∧ ∀ d' np' v, putName base k d np = .ok (d', np', v) → d'.length = d.length ∧ np' ≤ np + k.bytes := by
  cases k with
  | id n => exact ⟨NoUB.ok _, fun d' np' v h => by cases h; exact ⟨rfl, Nat.le_add_right _ _⟩⟩
  | name w =>
    rw [ResKey.bytes] at h1 ⊢
    unfold putName
    dsimp only
    have hlen : ∀ u, toUcs2 w = .ok u → u = w := fun u hu => by
      unfold toUcs2 at hu
      split at hu
      · cases hu; rfl
      · cases hu
    refine ⟨NoUB.bind (writeAt_noUB (by rw [leBytes_length]; omega)) fun d1 hd1 => NoUB.bind (toUcs2_noUB _) fun u hu =>
      NoUB.bind (writeAt_noUB ?_) fun d2 _ => NoUB.ok _, fun d' np' v h => ?_⟩
    · rw [hlen u hu, writeAt_length hd1, List.length_append, encUnits_length, leBytes_length, w32, Nat.mod_eq_of_lt (by omega)]
      omega
    · obtain ⟨d1, hd1, h⟩ := bind_ok_iff.mp h
      obtain ⟨u, hu, h⟩ := bind_ok_iff.mp h
      obtain ⟨d2, hd2, h⟩ := bind_ok_iff.mp h
      cases h
      refine ⟨by rw [writeAt_length hd2, writeAt_length hd1], ?_⟩
      have : w32 (np + 2 + (w.length * 2 + 2)) ≤ np + 2 + (w.length * 2 + 2) := Nat.mod_le _ _
      omega

/-- The positions of the writer stay below the given ones. -/
def PutSafe (d : Bytes) (sp np dp : Nat) (x : Res (Bytes × ResPos)) : Prop :=
  NoUB x ∧ ∀ d' s', x = .ok (d', s') → d'.length = d.length ∧ s'.sp ≤ sp ∧ s'.np ≤ np ∧ s'.dp ≤ dp

theorem PutSafe.pre {d : Bytes} {sp np dp : Nat} {α : Type} {x : Res α} {f : α → Res (Bytes × ResPos)} (hx : NoUB x)
    (hf : ∀ a, x = .ok a → PutSafe d sp np dp (f a)) : PutSafe d sp np dp (x >>= f) := by
  refine ⟨NoUB.bind hx fun a ha => (hf a ha).1, fun d' s' h => ?_⟩
  obtain ⟨a, ha, h⟩ := bind_ok_iff.mp h
  exact (hf a ha).2 d' s' h

theorem PutSafe.mono {d d1 : Bytes} {sp np dp sp1 np1 dp1 : Nat} {x : Res (Bytes × ResPos)} (h : PutSafe d1 sp1 np1 dp1 x)
    (hd : d1.length = d.length) (h1 : sp1 ≤ sp) (h2 : np1 ≤ np) (h3 : dp1 ≤ dp) : PutSafe d sp np dp x :=
  ⟨h.1, fun d' s' e => by obtain ⟨a, b, c, e⟩ := h.2 d' s' e; exact ⟨by omega, by omega, by omega, by omega⟩⟩

theorem countNamed_le (es : List ResEntry) : countNamed es + countIds es ≤ es.length := by
  have h1 : countNamed es ≤ namedCount es := by
    unfold countNamed w16 namedCount; rw [← List.countP_eq_length_filter]; exact Nat.mod_le _ _
  have h2 : countIds es ≤ idCount es := by
    unfold countIds w16 idCount; rw [← List.countP_eq_length_filter]; exact Nat.mod_le _ _
  have := named_ids_sum es
  omega

mutual
theorem ResEntry.put_safe {va base L : Nat} (h32 : L < 4294967296) : ∀ (e : ResEntry) (d : Bytes) (tp sp np dp : Nat), L ≤ d.length →
    tp + 8 ≤ L → sp + e.tables ≤ L → np + e.names ≤ L → e.dataEnd dp ≤ L →
    PutSafe d (sp + e.tables) (np + e.names) (e.dataEnd dp) (e.put va base d tp ⟨sp, np, dp⟩)
  | .empty k, d, tp, sp, np, dp, hL, h1, h2, h3, h4 => by
    rw [ResEntry.names] at h3
    rw [ResEntry.put]
    have := putName_safe (base := base) h3 hL h32
    refine PutSafe.pre this.1 fun a _ => ?_
    exact ⟨NoUB.throwE _, fun d' s' h => by cases h⟩
  | .data k cp x, d, tp, sp, np, dp, hL, h1, h2, h3, h4 => by
    rw [ResEntry.names] at h3
    rw [ResEntry.dataEnd] at h4
    rw [ResEntry.put, ResEntry.names, ResEntry.dataEnd, ResEntry.tables]
    have hc := ceilTo_ge (x := dp) (a := 4) (by omega)
    have hn := putName_safe (base := base) h3 hL h32
    refine PutSafe.pre hn.1 fun a ha => ?_
    obtain ⟨d1, np1, v⟩ := a
    obtain ⟨l1, b1⟩ := hn.2 d1 np1 v ha
    dsimp only
    rw [alignUp_of_le pow2_4 (by omega) (by omega), w32, w32, w32, Nat.mod_eq_of_lt (a := ceilTo dp 4 + 16) (by omega),
      Nat.mod_eq_of_lt (a := x.length) (by omega), List.take_length]
    refine PutSafe.pre (writeAt_noUB (by rw [resDataHdr_length]; omega)) fun d2 hd2 => ?_
    have l2 := writeAt_length hd2
    refine PutSafe.pre (writeAt_noUB (by omega)) fun d3 hd3 => ?_
    have l3 := writeAt_length hd3
    have l4 := entBytes_length v (sub32 (ceilTo dp 4) base)
    unfold entBytes at l4
    refine PutSafe.pre (writeAt_noUB (by rw [l4]; omega)) fun d4 hd4 => ?_
    have l5 := writeAt_length hd4
    refine ⟨NoUB.ok _, fun d' s' h => ?_⟩
    cases h
    dsimp only
    have : w32 (ceilTo dp 4 + 16 + x.length) ≤ ceilTo dp 4 + 16 + x.length := Nat.mod_le _ _
    exact ⟨by omega, by omega, b1, this⟩
  | .dir k h es, d, tp, sp, np, dp, hL, h1, h2, h3, h4 => by
    rw [ResEntry.names] at h3
    rw [ResEntry.dataEnd] at h4
    rw [ResEntry.tables] at h2
    rw [ResEntry.put, ResEntry.names, ResEntry.dataEnd, ResEntry.tables]
    have hn := putName_safe (base := base) (np := np) (k := k) (L := L) (by omega) hL h32
    refine PutSafe.pre hn.1 fun a ha => ?_
    obtain ⟨d1, np1, v⟩ := a
    obtain ⟨l1, b1⟩ := hn.2 d1 np1 v ha
    dsimp only
    have l2 := entBytes_length v (2147483648 ||| sub32 sp base)
    unfold entBytes at l2
    refine PutSafe.pre (writeAt_noUB (by rw [l2]; omega)) fun d2 hd2 => ?_
    have l3 := writeAt_length hd2
    refine PutSafe.pre (writeAt_noUB (by rw [resHdrBytes_length]; omega)) fun d3 hd3 => ?_
    have l4 := writeAt_length hd3
    have hcn := countNamed_le es
    rw [w32, w32, Nat.mod_eq_of_lt (a := sp + 16) (by omega), Nat.mod_eq_of_lt (by omega)]
    have := putEntries_safe (va := va) (base := base) h32 es d3 (sp + 16) (sp + 16 + 8 * (countNamed es + countIds es)) np1 dp (by omega)
      (by omega) (by omega) (by omega) h4
    exact this.mono (by omega) (by omega) (by omega) (Nat.le_refl _)
theorem putEntries_safe {va base L : Nat} (h32 : L < 4294967296) : ∀ (es : List ResEntry) (d : Bytes) (tp sp np dp : Nat), L ≤ d.length →
    tp + 8 * es.length ≤ L → sp + tablesOf es ≤ L → np + namesIn es ≤ L → dataEndOf es dp ≤ L →
    PutSafe d (sp + tablesOf es) (np + namesIn es) (dataEndOf es dp) (putEntries va base es d tp ⟨sp, np, dp⟩)
  | [], d, tp, sp, np, dp, _, _, _, _, _ => ⟨NoUB.ok _, fun d' s' h => by
      cases h; exact ⟨rfl, Nat.le_refl _, Nat.le_refl _, Nat.le_refl _⟩⟩
  | e :: es, d, tp, sp, np, dp, hL, h1, h2, h3, h4 => by
    rw [List.length_cons] at h1
    rw [tablesOf] at h2 ⊢
    rw [namesIn] at h3 ⊢
    rw [dataEndOf] at h4 ⊢
    rw [putEntries]
    have hge := dataEndOf_ge es (e.dataEnd dp)
    have hp := ResEntry.put_safe (va := va) (base := base) h32 e d tp sp np dp hL (by omega) (by omega) (by omega) (by omega)
    refine PutSafe.pre hp.1 fun a ha => ?_
    obtain ⟨d1, ⟨sp1, np1, dp1⟩⟩ := a
    obtain ⟨b1, b2, b3, b4⟩ := hp.2 _ _ ha
    dsimp only at b2 b3 b4 ⊢
    have hm := dataEndOf_mono es b4
    rw [w32, Nat.mod_eq_of_lt (by omega)]
    have := putEntries_safe (va := va) (base := base) h32 es d1 (tp + 8) sp1 np1 dp1 (by omega) (by omega) (by omega) (by omega) (by omega)
    exact this.mono b1 (by omega) (by omega) hm
end

theorem dirSet_slots {h : NtHdr} {id v : Nat} (hs : h.dirs.length = 16) (hid : id < 16) :
    NoUB (h.setDirRva id v) ∧ NoUB (h.setDirSize id v) ∧ ∀ n, h.setDirRva id v = .ok n → n.dirs.length = 16 := by
  obtain ⟨d, hd⟩ : ∃ d, h.dirs[id]? = some d := ⟨_, List.getElem?_eq_getElem (by omega)⟩
  unfold NtHdr.setDirRva NtHdr.setDirSize NtHdr.dirAt NtHdr.dirSet
  rw [hd]
  split
  · exact ⟨NoUB.throwE _, NoUB.throwE _, fun n h => by cases h⟩
  · simp only [ok_bind]
    rw [if_pos (by omega), if_pos (by omega)]
    exact ⟨NoUB.ok _, NoUB.ok _, fun n h => by cases h; simpa using hs⟩

theorem finishDir_noUB {p : Image} {i : Nat} {s : Sec} {d : Bytes} {strip save : Bool} {id : Nat} {dir : Nat × Nat}
    (hi : i < p.secs.length) (hs : p.nt.dirs.length = 16) (hid : id < 16) : NoUB (p.finishDir i s d strip save id dir) := by
  unfold Image.finishDir
  have h1 : ({ p with secs := p.secs.set i { s with data := d } } : Image).secs[i]? = some { s with data := d } := by
    show (p.secs.set i _)[i]? = _
    rw [List.getElem?_set_self hi]
  have hus : ∀ q : Image, q.updateImageSize.nt.dirs = q.nt.dirs := by
    intro q
    unfold Image.updateImageSize
    split <;> rfl
  have hv : ∀ (q : Image) (j v : Nat), NoUB (q.setSectionVirtualSize j v) ∧
      ∀ q', q.setSectionVirtualSize j v = .ok q' → q'.nt.dirs = q.nt.dirs := by
    intro q j v
    unfold Image.setSectionVirtualSize
    split
    · exact ⟨NoUB.throwE _, fun q' h => by cases h⟩
    · split
      · exact ⟨NoUB.throwE _, fun q' h => by cases h⟩
      · split
        · split
          · exact ⟨NoUB.throwE _, fun q' h => by cases h⟩
          · exact ⟨NoUB.ok _, fun q' h => by cases h; exact hus _⟩
        · exact ⟨NoUB.ok _, fun q' h => by cases h; exact hus _⟩
  have hpr : ∀ fa sa t, NoUB (prepareSection fa sa t) := by
    intro fa sa t
    unfold prepareSection
    refine NoUB.bind (NoUB.throwIf _ _) fun _ _ => ?_
    split <;> exact NoUB.ok _
  have hrec : NoUB (({ p with secs := p.secs.set i { s with data := d } } : Image).recalculateSectionSizes i strip) ∧
      ∀ q, ({ p with secs := p.secs.set i { s with data := d } } : Image).recalculateSectionSizes i strip = .ok q → q.nt.dirs = p.nt.dirs := by
    unfold Image.recalculateSectionSizes
    rw [h1]
    dsimp only
    refine ⟨NoUB.bind (hpr _ _ _) fun t _ => ?_, fun q hq => ?_⟩
    · split <;> split
      · exact (hv _ _ _).1
      · exact NoUB.ok _
      · exact (hv _ _ _).1
      · exact NoUB.ok _
    · obtain ⟨t, _, hq⟩ := bind_ok_iff.mp hq
      split at hq <;> split at hq
      · have := (hv _ _ _).2 q hq; exact this
      · cases hq; rfl
      · have := (hv _ _ _).2 q hq; exact this
      · cases hq; rfl
  refine NoUB.bind hrec.1 fun q hq => ?_
  have hqs : q.nt.dirs.length = 16 := by rw [hrec.2 q hq]; exact hs
  split
  · refine NoUB.bind (dirSet_slots hqs hid).1 fun n hn => ?_
    exact NoUB.bind (dirSet_slots ((dirSet_slots hqs hid).2.2 n hn) hid).2.1 fun _ _ => NoUB.ok _
  · exact NoUB.ok _

end PE
