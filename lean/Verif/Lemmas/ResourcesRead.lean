/-
Helper lemmas for the resource directory: what the reader finds in a laid out tree.
-/
import Verif.Lemmas.Resources
import Verif.Lemmas.ImportsRound

namespace PE

theorem decUnits_enc {w : WStr} (h : ∀ c ∈ w, c < 65536) : decUnits (encUnits w) = w := by
  induction w with
  | nil => rfl
  | cons c w ih =>
    have e : encUnits (c :: w) = UInt8.ofNat c :: UInt8.ofNat (c / 256) :: encUnits w := rfl
    rw [e, decUnits, ih (fun x hx => h x (List.mem_cons_of_mem _ hx)),
      show [UInt8.ofNat c, UInt8.ofNat (c / 256)] = leBytes 2 c from rfl, fromLE_leBytes, Nat.mod_eq_of_lt (h c (by simp))]

theorem fromUcs2_ok {w : WStr} (h : ∀ c ∈ w, c < 0xD800 ∨ (0xE000 ≤ c ∧ c < 0x10000)) : fromUcs2 w = .ok w := by
  unfold fromUcs2
  rw [if_pos]
  rw [List.all_eq_true]
  exact fun c hc => (isUcs2_iff c).mpr (h c hc)

theorem isSumSafe_ok {a b : Nat} (h : a + b < 4294967296) : isSumSafe a b = true := by
  unfold isSumSafe; rw [decide_eq_true_eq]; omega

theorem rd_entBytes {a b : Nat} (ha : a < 2 ^ 32) (hb : b < 2 ^ 32) :
    rd 4 (entBytes a b) 0 = a ∧ rd 4 (entBytes a b) 4 = b ∧ rd 2 (entBytes a b) 0 = a % 65536 := by
  have hfs : ∀ f ∈ [(4, a), (4, b)], f.2 < 256 ^ f.1 := by
    simp only [List.forall_mem_cons]
    refine ⟨by omega, by omega, by simp⟩
  have key : ∀ k w v off, [(4, a), (4, b)][k]? = some (w, v) →
      (([(4, a), (4, b)].take k).map Prod.fst).sum = off → rd w (entBytes a b) off = v := by
    intro k w v off ha hb
    have := rd_enc_nth [] hfs ha hb
    rwa [List.append_nil] at this
  refine ⟨key 0 _ _ _ rfl rfl, key 1 _ _ _ rfl rfl, ?_⟩
  have e : entBytes a b = leBytes 2 a ++ (leBytes 2 (a / 256 / 256) ++ (leBytes 4 b ++ [])) := rfl
  rw [e, rd_here]

theorem rd_resDataHdr {a b c : Nat} (ha : a < 2 ^ 32) (hb : b < 2 ^ 32) (hc : c < 2 ^ 32) :
    rd 4 (resDataHdr a b c) 0 = a ∧ rd 4 (resDataHdr a b c) 4 = b ∧ rd 4 (resDataHdr a b c) 8 = c := by
  have hfs : ∀ f ∈ [(4, a), (4, b), (4, c), (4, 0)], f.2 < 256 ^ f.1 := by
    simp only [List.forall_mem_cons]
    refine ⟨by omega, by omega, by omega, by omega, by simp⟩
  have key : ∀ k w v off, [(4, a), (4, b), (4, c), (4, 0)][k]? = some (w, v) →
      (([(4, a), (4, b), (4, c), (4, 0)].take k).map Prod.fst).sum = off → rd w (resDataHdr a b c) off = v := by
    intro k w v off ha hb
    have := rd_enc_nth [] hfs ha hb
    rwa [List.append_nil] at this
  exact ⟨key 0 _ _ _ rfl rfl, key 1 _ _ _ rfl rfl, key 2 _ _ _ rfl rfl⟩

theorem rd_resHdrBytes {h : ResHdr} {es : List ResEntry} (hd : DirOk h es) :
    rd 4 (resHdrBytes h es) 0 = h.chars ∧ rd 4 (resHdrBytes h es) 4 = h.stamp ∧ rd 2 (resHdrBytes h es) 8 = h.major ∧
      rd 2 (resHdrBytes h es) 10 = h.minor ∧ rd 2 (resHdrBytes h es) 14 + rd 2 (resHdrBytes h es) 12 = es.length := by
  have h1 := hd.hdr.chars
  have h2 := hd.hdr.stamp
  have h3 := hd.hdr.major
  have h4 := hd.hdr.minor
  have h5 := countNamed_eq hd.named
  have h6 := countIds_eq hd.ids
  have h7 := hd.named
  have h8 := hd.ids
  have h9 := named_ids_sum es
  generalize hfs' : [(4, h.chars), (4, h.stamp), (2, h.major), (2, h.minor), (2, countNamed es), (2, countIds es)] = fs
  have hfs : ∀ f ∈ fs, f.2 < 256 ^ f.1 := by
    rw [← hfs']
    simp only [List.forall_mem_cons]
    refine ⟨by omega, by omega, by omega, by omega, by omega, by omega, by simp⟩
  have key : ∀ k w v off, fs[k]? = some (w, v) → ((fs.take k).map Prod.fst).sum = off → rd w (resHdrBytes h es) off = v := by
    intro k w v off ha hb
    have := rd_enc_nth [] hfs ha hb
    rw [List.append_nil, ← hfs'] at this
    exact this
  subst hfs'
  refine ⟨key 0 _ _ _ rfl rfl, key 1 _ _ _ rfl rfl, key 2 _ _ _ rfl rfl, key 3 _ _ _ rfl rfl, ?_⟩
  rw [key 5 2 _ 14 rfl rfl, key 4 2 _ 12 rfl rfl]
  omega

/-- Reading a stored key. -/
theorem resKey_at {p : Image} {va : Nat} {m : Bytes} {s : Sec} (hw : Window p va m s) {base np b : Nat} {k : ResKey} (hk : k.Ok)
    (ha : At m np k.enc) (hb : base ≤ np) (hr : np < base + 2147483648) (hb2 : b < 2 ^ 32) :
    p.resKey (va + base) (entBytes (k.field (np - base)) b) = .ok k := by
  have hfin := hw.fin
  unfold Image.resKey
  cases k with
  | id n =>
    rw [ResKey.field]
    have hn : n < 65536 := hk
    obtain ⟨e1, _, e3⟩ := rd_entBytes (a := n) (b := b) (by omega) hb2
    rw [e1, e3, if_neg (by omega), Nat.mod_eq_of_lt hn]
  | name w =>
    rw [ResKey.field]
    rw [ResKey.enc] at ha
    obtain ⟨hl, hc⟩ : w.length < 65536 ∧ ∀ c ∈ w, c < 0xD800 ∨ (0xE000 ≤ c ∧ c < 0x10000) := hk
    obtain ⟨e1, _, _⟩ := rd_entBytes (a := 2147483648 + (np - base)) (b := b) (by omega) hb2
    have hle := ha.le
    rw [List.length_append, List.length_append, encUnits_length, leBytes_length, leBytes_length] at hle
    have a2 : At m (np + 2) (encUnits w) := (ha.right (n := np + 2) (by rw [leBytes_length])).left
    rw [e1, if_pos (by omega), Nat.add_sub_cancel_left]
    unfold Image.resName
    rw [w32, w32, w32, Nat.mod_eq_of_lt (a := va + base + 2) (by omega), Nat.mod_eq_of_lt (a := va + base + (np - base)) (by omega),
      Nat.mod_eq_of_lt (a := va + base + (np - base) + 2) (by omega), show va + base + (np - base) = va + np by omega,
      show va + np + 2 = va + (np + 2) by omega, isSumSafe_ok (by omega), throwIf_neg (by simp), ok_bind,
      hw.readInt_at true ha.left (by omega) (by omega), ok_bind, hw.len true (np + 2) (by omega), ok_bind, throwIf_neg (by omega), ok_bind,
      hw.ptr true (np + 2) (by omega), ok_bind]
    dsimp only
    rw [← encUnits_length, at_readN a2, ok_bind, decUnits_enc (fun c hcm => by have := hc c hcm; omega), fromUcs2_ok hc, ok_bind]

/-- Reading stored data. -/
theorem resData_at {p : Image} {va : Nat} {m : Bytes} {s : Sec} (hw : Window p va m s) {base c cp : Nat} {x : Bytes} (hcp : cp < 2 ^ 32)
    (h1 : At m c (resDataHdr (va + (c + 16)) x.length cp)) (h2 : At m (c + 16) x) (hb : base ≤ c) (hin : c + 16 < m.length) :
    p.resData (va + base) (c - base) = .ok (cp, x) := by
  have hfin := hw.fin
  have l2 := h2.le
  obtain ⟨e1, e2, e3⟩ := rd_resDataHdr (a := va + (c + 16)) (b := x.length) (c := cp) (by omega) (by omega) hcp
  unfold Image.resData
  rw [w32, Nat.mod_eq_of_lt (by omega), show va + base + (c - base) = va + c by omega, hw.readT_at true h1 (by omega) (resDataHdr_length _ _ _),
    ok_bind, e1, e2, e3, hw.len true (c + 16) hin, ok_bind, throwIf_neg (by omega), ok_bind, hw.ptr true (c + 16) hin, ok_bind]
  dsimp only
  rw [at_readN h2, ok_bind]

mutual
/-- The entry as read: with the counts of its own entries. -/
def ResEntry.canon : ResEntry → ResEntry
  | .empty k => .empty k
  | .data k cp d => .data k cp d
  | .dir k h es => .dir k { h with named := namedCount es, ids := idCount es } (canonAll es)
def canonAll : List ResEntry → List ResEntry
  | [] => []
  | e :: es => e.canon :: canonAll es
end

theorem ResEntry.canon_key (e : ResEntry) : e.canon.key = e.key := by cases e <;> rfl
theorem ResEntry.canon_isNamed (e : ResEntry) : e.canon.isNamed = e.isNamed := by unfold ResEntry.isNamed; rw [e.canon_key]

theorem canonAll_map (es : List ResEntry) : canonAll es = es.map ResEntry.canon := by
  induction es with
  | nil => rfl
  | cons e es ih => rw [canonAll, ih, List.map_cons]

mutual
/-- The data begin inside of a window of `M` bytes. -/
def ResEntry.Inside (M : Nat) : ResEntry → Nat → Prop
  | .empty _, _ => True
  | .data _ _ _, dp => ceilTo dp 4 + 16 < M
  | .dir _ _ es, dp => InsideAll M es dp
def InsideAll (M : Nat) : List ResEntry → Nat → Prop
  | [], _ => True
  | e :: es, dp => e.Inside M dp ∧ InsideAll M es (e.dataEnd dp)
end

mutual
theorem ResEntry.inside_of_lt {M : Nat} : ∀ (e : ResEntry) (dp : Nat), e.dataEnd dp < M → e.Inside M dp
  | .empty _, _, _ => trivial
  | .data _ _ x, dp, h => by rw [ResEntry.dataEnd] at h; rw [ResEntry.Inside]; omega
  | .dir _ _ es, dp, h => by rw [ResEntry.dataEnd] at h; rw [ResEntry.Inside]; exact insideAll_of_lt es dp h
theorem insideAll_of_lt {M : Nat} : ∀ (es : List ResEntry) (dp : Nat), dataEndOf es dp < M → InsideAll M es dp
  | [], _, _ => trivial
  | e :: es, dp, h => by
    rw [dataEndOf] at h
    exact ⟨e.inside_of_lt dp (Nat.lt_of_le_of_lt (dataEndOf_ge es _) h), insideAll_of_lt es _ h⟩
end

mutual
theorem ResEntry.inside_of_ne {M : Nat} : ∀ (e : ResEntry) (dp : Nat), e.AllData (fun d => d ≠ []) → e.dataEnd dp ≤ M → e.Inside M dp
  | .empty _, _, _, _ => trivial
  | .data _ _ x, dp, hd, h => by
    rw [ResEntry.dataEnd] at h
    rw [ResEntry.AllData] at hd
    have := List.length_pos_iff.mpr hd
    rw [ResEntry.Inside]; omega
  | .dir _ _ es, dp, hd, h => by
    rw [ResEntry.dataEnd] at h
    rw [ResEntry.AllData] at hd
    rw [ResEntry.Inside]; exact insideAll_of_ne es dp hd h
theorem insideAll_of_ne {M : Nat} : ∀ (es : List ResEntry) (dp : Nat), AllData (fun d => d ≠ []) es → dataEndOf es dp ≤ M →
    InsideAll M es dp
  | [], _, _, _ => trivial
  | e :: es, dp, hd, h => by
    rw [dataEndOf] at h
    exact ⟨e.inside_of_ne dp hd.1 (Nat.le_trans (dataEndOf_ge es _) h), insideAll_of_ne es _ hd.2 h⟩
end

theorem foldl_add_es (l : List ResEntry) (r : ResDir) : (l.foldl ResDir.add r).es = r.es ++ l := by
  induction l generalizing r with
  | nil => simp
  | cons e l ih => rw [List.foldl_cons, ih]; simp [ResDir.add]

theorem foldl_add_h (l : List ResEntry) (r : ResDir) (h1 : r.h.named + namedCount l < 4294967296) (h2 : r.h.ids + idCount l < 4294967296) :
    (l.foldl ResDir.add r).h = { r.h with named := r.h.named + namedCount l, ids := r.h.ids + idCount l } := by
  induction l generalizing r with
  | nil => rfl
  | cons e l ih =>
    have hn : namedCount (e :: l) = (if e.isNamed then 1 else 0) + namedCount l := by
      unfold namedCount; rw [List.countP_cons]; omega
    have hi : idCount (e :: l) = (if e.isNamed then 0 else 1) + idCount l := by
      unfold idCount; rw [List.countP_cons]; cases e.isNamed <;> simp <;> omega
    rw [hn] at h1 ⊢
    rw [hi] at h2 ⊢
    rw [List.foldl_cons]
    cases hnm : e.isNamed with
    | true =>
      rw [hnm] at h1 h2
      simp only [↓reduceIte] at h1 h2 ⊢
      have ha : r.add e = { h := { r.h with named := r.h.named + 1 }, es := r.es ++ [e] } := by
        unfold ResDir.add; rw [hnm, w32, Nat.mod_eq_of_lt (by omega)]; rfl
      rw [ih (r.add e) (by rw [ha]; dsimp only; omega) (by rw [ha]; dsimp only; omega), ha]
      simp [Nat.add_assoc]
    | false =>
      rw [hnm] at h1 h2
      simp only [Bool.false_eq_true, ↓reduceIte] at h1 h2 ⊢
      have ha : r.add e = { h := { r.h with ids := r.h.ids + 1 }, es := r.es ++ [e] } := by
        unfold ResDir.add; rw [hnm, if_neg (by simp), w32, Nat.mod_eq_of_lt (by omega)]
      rw [ih (r.add e) (by rw [ha]; dsimp only; omega) (by rw [ha]; dsimp only; omega), ha]
      simp [Nat.add_assoc]

theorem namedCount_canon (es : List ResEntry) : namedCount (canonAll es) = namedCount es ∧ idCount (canonAll es) = idCount es := by
  rw [canonAll_map]
  unfold namedCount idCount
  rw [List.countP_map, List.countP_map]
  constructor <;> congr 1 <;> funext e <;> simp [ResEntry.canon_isNamed]

/-- One directory, given what its entries give. -/
theorem resDir_of {p : Image} {va : Nat} {m : Bytes} {s : Sec} (hw : Window p va m s) {base sp f top : Nat} {h : ResHdr}
    {es : List ResEntry} (hd : DirOk h es) (hb : base ≤ sp) (ha : At m sp (resHdrBytes h es)) (hl : sp + 16 + 8 * es.length ≤ m.length)
    {seen : List Nat} (hs : ∀ o ∈ seen, o + base < sp)
    (hes : ∀ r : ResDir, ∀ seen : List Nat, (∀ o ∈ seen, o + base < sp + 16 + 8 * es.length) → ∃ seen' : List Nat,
      p.resEntries (va + base) (sp - base) (p.resDir (va + base) f) es.length 0 r seen = .ok ((canonAll es).foldl ResDir.add r, seen') ∧
        ∀ o ∈ seen', o + base < top) :
    ∃ seen' : List Nat, p.resDir (va + base) (f + 1) (sp - base) seen =
      .ok ({ h := { h with named := namedCount es, ids := idCount es }, es := canonAll es }, seen') ∧ ∀ o ∈ seen', o + base < top := by
  have hfin := hw.fin
  obtain ⟨e1, e2, e3, e4, e5⟩ := rd_resHdrBytes hd
  have hsum := named_ids_sum es
  have hn := hd.named
  have hi := hd.ids
  obtain ⟨seen', he, ht⟩ := hes { h := { chars := h.chars, stamp := h.stamp, major := h.major, minor := h.minor } } ((sp - base) :: seen) (by
    intro o ho
    rcases List.mem_cons.mp ho with rfl | ho
    · omega
    · have := hs o ho; omega)
  refine ⟨seen', ?_, ht⟩
  rw [Image.resDir, throwIf_neg (fun hm => by have := hs _ hm; omega), ok_bind, isSumSafe_ok (by omega), throwIf_neg (by simp), ok_bind,
    show va + base + (sp - base) = va + sp by omega, hw.readT_at true ha (by omega) (resHdrBytes_length _ _), ok_bind]
  dsimp only
  rw [e1, e2, e3, e4, e5, isSumSafe_ok (by omega), isSumSafe_ok (by omega), throwIf_neg (by simp), ok_bind, he]
  obtain ⟨c1, c2⟩ := namedCount_canon es
  congr 2
  have q1 := foldl_add_es (canonAll es) { h := { chars := h.chars, stamp := h.stamp, major := h.major, minor := h.minor } }
  have q2 := foldl_add_h (canonAll es) { h := { chars := h.chars, stamp := h.stamp, major := h.major, minor := h.minor } }
    (by dsimp only; omega) (by dsimp only; omega)
  generalize (canonAll es).foldl ResDir.add _ = t at q1 q2
  obtain ⟨th, te⟩ := t
  dsimp only at q1 q2
  rw [q1, q2, c1, c2]
  simp

mutual
theorem resEntry_at {p : Image} {va : Nat} {m : Bytes} {s : Sec} (hw : Window p va m s) {base : Nat} :
    ∀ (e : ResEntry) (fuel tp sp np dp : Nat) (seen : List Nat), e.Ok → e.Laid m va base tp sp np dp → e.Inside m.length dp → base ≤ tp →
    base ≤ sp → sp + e.tables ≤ np → np + e.names ≤ dp → e.dataEnd dp ≤ m.length → e.dataEnd dp < base + 2147483648 → e.tables ≤ fuel →
    (∀ o ∈ seen, o + base < sp) →
    ∃ seen' : List Nat, p.resEntry (va + base) (p.resDir (va + base) fuel) (va + tp) seen = .ok (e.canon, seen') ∧
      ∀ o ∈ seen', o + base < sp + e.tables
  | .empty _, _, _, _, _, _, _, h, _, _, _, _, _, _, _, _, _, _ => h.elim
  | .data k cp x, fuel, tp, sp, np, dp, seen, hok, hl, hin, hb1, hb2, hb3, hb4, hlen, hr, hf, hs => by
    rw [ResEntry.Laid] at hl
    rw [ResEntry.Inside] at hin
    rw [ResEntry.names] at hb4
    rw [ResEntry.dataEnd] at hlen hr
    obtain ⟨h1, h2, h3, h4⟩ := hl
    have hc := ceilTo_ge (x := dp) (a := 4) (by omega)
    have l1 := h1.le
    have l2 := h2.le
    have hkf : k.field (np - base) < 2 ^ 32 := by
      cases k with
      | id n => have : n < 65536 := hok.1; rw [ResKey.field]; omega
      | name w => rw [ResKey.field]; rw [ResKey.enc_length, ResKey.bytes] at l2; omega
    obtain ⟨_, e2, _⟩ := rd_entBytes (a := k.field (np - base)) (b := ceilTo dp 4 - base) hkf (by omega)
    refine ⟨seen, ?_, fun o ho => by have := hs o ho; omega⟩
    unfold Image.resEntry
    rw [hw.readT_at true h1 (by omega) (entBytes_length _ _), ok_bind, resKey_at hw hok.1 h2 (by omega) (by omega) (by omega), ok_bind, e2,
      if_neg (by omega), resData_at hw hok.2 h3 h4 (by omega) hin, ok_bind]
    rfl
  | .dir k h es, fuel, tp, sp, np, dp, seen, hok, hl, hin, hb1, hb2, hb3, hb4, hlen, hr, hf, hs => by
    rw [ResEntry.Laid] at hl
    rw [ResEntry.Inside] at hin
    rw [ResEntry.tables] at hb3 hf
    rw [ResEntry.names] at hb4
    rw [ResEntry.dataEnd] at hlen hr
    have hde := dataEndOf_ge es dp
    obtain ⟨h1, h2, h3, h4⟩ := hl
    have l1 := h1.le
    have l2 := h2.le
    have hkf : k.field (np - base) < 2 ^ 32 := by
      cases k with
      | id n => have : n < 65536 := hok.1; rw [ResKey.field]; omega
      | name w => rw [ResKey.field]; rw [ResKey.enc_length, ResKey.bytes] at l2; omega
    obtain ⟨_, e2, _⟩ := rd_entBytes (a := k.field (np - base)) (b := 2147483648 + (sp - base)) hkf (by omega)
    obtain ⟨f, rfl⟩ : ∃ f, fuel = f + 1 := ⟨fuel - 1, by omega⟩
    obtain ⟨seen', he, ht⟩ := resDir_of hw (top := sp + 16 + 8 * es.length + tablesOf es) (f := f) hok.2.1 hb2 h3 (by omega) hs (by
      intro r seen hs
      have := resEntries_at hw es f (sp + 16) (sp + 16 + 8 * es.length) (np + k.bytes) dp 0 (sp - base) r seen hok.2.2 h4 hin (by omega)
        (by omega) (by omega) (by omega) (by omega) (by omega) (by omega) (by omega) hs
      exact this)
    refine ⟨seen', ?_, fun o ho => by have := ht o ho; rw [ResEntry.tables]; omega⟩
    unfold Image.resEntry
    rw [hw.readT_at true h1 (by omega) (entBytes_length _ _), ok_bind, resKey_at hw hok.1 h2 (by omega) (by omega) (by omega), ok_bind, e2,
      if_pos (by omega), Nat.add_sub_cancel_left, he, ok_bind]
    rfl
theorem resEntries_at {p : Image} {va : Nat} {m : Bytes} {s : Sec} (hw : Window p va m s) {base : Nat} :
    ∀ (es : List ResEntry) (fuel tp sp np dp i off : Nat) (r : ResDir) (seen : List Nat), AllOk es → LaidAll m va base es tp sp np dp →
    InsideAll m.length es dp → tp = base + off + 16 + i * 8 → base ≤ sp → sp + tablesOf es ≤ np → np + namesIn es ≤ dp →
    tp + 8 * es.length ≤ m.length → dataEndOf es dp ≤ m.length → dataEndOf es dp < base + 2147483648 → tablesOf es ≤ fuel → (∀ o ∈ seen, o + base < sp) →
    ∃ seen' : List Nat, p.resEntries (va + base) off (p.resDir (va + base) fuel) es.length i r seen =
      .ok ((canonAll es).foldl ResDir.add r, seen') ∧ ∀ o ∈ seen', o + base < sp + tablesOf es
  | [], fuel, tp, sp, np, dp, i, off, r, seen, _, _, _, _, _, _, _, _, _, _, _, hs => ⟨seen, rfl, hs⟩
  | e :: es, fuel, tp, sp, np, dp, i, off, r, seen, hok, hl, hin, htp, hb2, hb3, hb4, hlt, hlen, hr, hf, hs => by
    have hfin := hw.fin
    rw [LaidAll] at hl
    rw [InsideAll] at hin
    rw [tablesOf] at hb3 hf
    rw [namesIn] at hb4
    rw [dataEndOf] at hlen hr
    have hde := dataEndOf_ge es (e.dataEnd dp)
    rw [List.length_cons] at hlt
    have g1 := e.dataEnd_ge dp
    obtain ⟨s1, he1, ht1⟩ := resEntry_at hw e fuel tp sp np dp seen hok.1 hl.1 hin.1 (by omega) hb2 (by omega) (by omega) (by omega) (by omega) (by omega) hs
    obtain ⟨s2, he2, ht2⟩ := resEntries_at hw es fuel (tp + 8) (sp + e.tables) (np + e.names) (e.dataEnd dp) (i + 1) off (r.add e.canon) s1
      hok.2 hl.2 hin.2 (by omega) (by omega) (by omega) (by omega) (by omega) (by omega) (by omega) (by omega) ht1
    refine ⟨s2, ?_, fun o ho => by have := ht2 o ho; rw [tablesOf]; omega⟩
    rw [List.length_cons, Image.resEntries, show va + base + 16 + i * 8 + off = va + tp by omega, w32, Nat.mod_eq_of_lt (by omega), he1, ok_bind]
    dsimp only
    rw [he2, canonAll, List.foldl_cons]
end

end PE
