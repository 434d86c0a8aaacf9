/-
Helper lemmas: reading a written import directory.
-/
import Verif.Lemmas.Imports

namespace PE

/-! ### Reading does not depend on further sections -/

/-- Everything that can be found in `p` is found in `q`. -/
structure Within (p q : Image) : Prop where
  kind : q.kind = p.kind
  hdr : q.hdrData = p.hdrData
  align : q.nt.secAlign = p.nt.secAlign
  sec : ∀ rva s, p.sectionFromRva rva = .ok s → q.sectionFromRva rva = .ok s

theorem Within.readT {p q : Image} (h : Within p q) {n rva : Nat} {t : DataType} {hdrs : Bool} {b : Bytes}
    (hr : p.readT n rva t hdrs = .ok b) : q.readT n rva t hdrs = .ok b := by
  unfold Image.readT at hr ⊢
  rw [h.hdr, h.align]
  split at hr
  · next hc => rw [if_pos hc]; exact hr
  · next hc =>
    rw [if_neg hc]
    obtain ⟨s, hs, hr⟩ := bind_ok_iff.mp hr
    rw [h.sec _ _ hs, ok_bind]
    exact hr

theorem Within.readInt {p q : Image} (h : Within p q) {n rva : Nat} {t : DataType} {hdrs : Bool} {v : Nat}
    (hr : p.readInt n rva t hdrs = .ok v) : q.readInt n rva t hdrs = .ok v := by
  unfold Image.readInt at hr ⊢
  obtain ⟨b, hb, hr⟩ := bind_ok_iff.mp hr
  rw [h.readT hb, ok_bind]
  exact hr

theorem Within.strAt {p q : Image} (h : Within p q) {e : Err} {rva : Nat} {x : Bytes}
    (hr : p.strAt e rva = .ok x) : q.strAt e rva = .ok x := by
  unfold Image.strAt at hr ⊢
  obtain ⟨len, hl, hr⟩ := bind_ok_iff.mp hr
  obtain ⟨u, hu, hr⟩ := bind_ok_iff.mp hr
  obtain ⟨bo, hb, hr⟩ := bind_ok_iff.mp hr
  have h1 : q.dataLenFrom rva rva .virt true = .ok len := by
    unfold Image.dataLenFrom at hl ⊢
    rw [h.hdr, h.align]
    split at hl
    · next hc => rw [if_pos hc]; exact hl
    · next hc =>
      rw [if_neg hc]
      obtain ⟨s, hs, hl⟩ := bind_ok_iff.mp hl
      rw [h.sec _ _ hs, ok_bind]
      exact hl
  have h2 : q.ptrFromRva rva .virt true = .ok bo := by
    unfold Image.ptrFromRva at hb ⊢
    rw [h.hdr, h.align]
    split at hb
    · next hc => rw [if_pos hc]; exact hb
    · next hc =>
      rw [if_neg hc]
      obtain ⟨s, hs, hb⟩ := bind_ok_iff.mp hb
      rw [h.sec _ _ hs, ok_bind]
      exact hb
  rw [h1, ok_bind, hu, ok_bind, h2, ok_bind]
  exact hr

theorem Within.importFn {p q : Image} (h : Within p q) {a v : Nat} {f : ImportFn}
    (hr : p.importFn a v = .ok f) : q.importFn a v = .ok f := by
  unfold Image.importFn at hr ⊢
  rw [h.kind]
  split at hr
  · next hc => rw [if_pos hc]; exact hr
  · next hc =>
    rw [if_neg hc]
    obtain ⟨u, hu, hr⟩ := bind_ok_iff.mp hr
    obtain ⟨n, hn, hr⟩ := bind_ok_iff.mp hr
    obtain ⟨x, hx, hr⟩ := bind_ok_iff.mp hr
    rw [hu, ok_bind, h.strAt hn, ok_bind, h.readInt hx, ok_bind]
    exact hr

theorem Within.importThunks {p q : Image} (h : Within p q) {a v : Nat} {fs : List ImportFn}
    (hr : p.importThunks a v = .ok fs) : q.importThunks a v = .ok fs := by
  induction hm : 4294967296 - a using Nat.strongRecOn generalizing a v fs with
  | _ m ih =>
    rw [Image.importThunks] at hr ⊢
    obtain ⟨x, hx, hr⟩ := bind_ok_iff.mp hr
    rw [h.kind, h.readInt hx, ok_bind]
    split at hr
    · next hc => rw [if_pos hc]; exact hr
    · next hc =>
      rw [if_neg hc]
      obtain ⟨y, hy, hr⟩ := bind_ok_iff.mp hr
      rw [h.readInt hy, ok_bind]
      split at hr
      · next hc => rw [if_pos hc]; exact hr
      · next hc =>
        rw [if_neg hc]
        obtain ⟨f, hf, hr⟩ := bind_ok_iff.mp hr
        rw [h.importFn hf, ok_bind]
        split at hr
        · next hlt =>
          rw [dif_pos hlt]
          obtain ⟨r, hrr, hr⟩ := bind_ok_iff.mp hr
          rw [ih _ (by have := Nat.mod_lt (a + p.kind.ptr) (show 0 < 4294967296 by decide); simp only [w32] at hlt ⊢; omega) hrr rfl, ok_bind]
          exact hr
        · simp [ubE] at hr

theorem Within.importTables {p q : Image} (h : Within p q) {a v : Nat} {fs : List ImportFn}
    (hr : p.importTables a v = .ok fs) : q.importTables a v = .ok fs := by
  unfold Image.importTables Image.importLookup0 at hr ⊢
  obtain ⟨x, hx, hr⟩ := bind_ok_iff.mp hr
  obtain ⟨y, hy, hr⟩ := bind_ok_iff.mp hr
  rw [h.kind, h.readInt hx, ok_bind]
  have : (if v = 0 then .ok x else q.readInt p.kind.ptr v .virt true) = (.ok y : Res Nat) := by
    split at hy
    · next hc => rw [if_pos hc]; exact hy
    · next hc => rw [if_neg hc]; exact h.readInt hy
  rw [this, ok_bind]
  split at hr
  · next hc => rw [if_pos hc]; exact h.importThunks hr
  · next hc => rw [if_neg hc]; exact hr

/-- An image without one of its sections lies within every image that has the other sections, too. -/
theorem within_erase {p q : Image} {i : Nat} (hv : ValidTable q) (hk : q.kind = p.kind) (hh : q.hdrData = p.hdrData)
    (ha : q.nt.secAlign = p.nt.secAlign) (ho : ∀ j, j ≠ i → q.secs[j]? = p.secs[j]?) :
    Within { p with secs := p.secs.eraseIdx i } q := by
  refine ⟨hk, hh, ha, fun rva s hs => ?_⟩
  obtain ⟨hm, hc⟩ := sectionFromRva_mem hs
  have hmem : s ∈ q.secs := by
    rw [List.mem_eraseIdx_iff_getElem?] at hm
    obtain ⟨j, hj, hjs⟩ := hm
    exact List.mem_of_getElem? (i := j) (by rw [ho j hj]; exact hjs)
  refine C06_unique q hv.sa hv.fits hv.contig.disjoint _ s hmem ?_
  have hc' : s.containsRva q.nt.secAlign rva = true := by rw [ha]; exact hc
  exact (Sec.containsRva_iff hv.sa (hv.fits s hmem) rva).mp hc'

/-! ### Functions -/

theorem snap_or {k n : Nat} (h : n < 2 ^ k) : n ||| 2 ^ k = 2 ^ k + n := by
  have := Nat.two_pow_add_eq_or_of_lt h 1
  rw [Nat.mul_one] at this
  rw [Nat.or_comm, this]

theorem snap_bit (k n : Nat) : (n ||| 2 ^ k).testBit k = true := by
  rw [Nat.testBit_or, Nat.testBit_two_pow_self, Bool.or_true]

theorem lookVal_lt {ptr va ps : Nat} (hp : ptr = 4 ∨ ptr = 8) {f : ImportFn} (hf : f.name = [] → f.ordinal < 2 ^ 16)
    (h : va + ps < 2 ^ 32) : lookVal ptr va ps f < 256 ^ ptr := by
  unfold lookVal
  split
  · next hn =>
    have := hf hn
    rcases hp with rfl | rfl
    · rw [show 8 * 4 - 1 = 31 by decide, snap_or (by omega)]; omega
    · rw [show 8 * 8 - 1 = 63 by decide, snap_or (by omega)]; omega
  · rcases hp with rfl | rfl <;> omega

theorem lookVal_ne {ptr va ps : Nat} (hp : ptr = 4 ∨ ptr = 8) {f : ImportFn} (hf : f.name = [] → f.ordinal < 2 ^ 16)
    (h : 0 < va) : lookVal ptr va ps f ≠ 0 := by
  unfold lookVal
  split
  · next hn =>
    have := hf hn
    rcases hp with rfl | rfl
    · rw [show 8 * 4 - 1 = 31 by decide, snap_or (by omega)]; omega
    · rw [show 8 * 8 - 1 = 63 by decide, snap_or (by omega)]; omega
  · omega

theorem importFn_eq {q : Image} {va : Nat} {m : Bytes} {s : Sec} (hw : Window q va m s) {f : ImportFn} {orig : Bool}
    (hf : f.Ok q.kind.ptr orig) {ps : Nat} (ha : At m ps (fnStr f)) (hlow : q.kind.ptr = 4 → f.name ≠ [] → va + ps < 2 ^ 31) (a : Nat) :
    q.importFn a (lookVal q.kind.ptr va ps f) = .ok { f with iatVa := a } := by
  have hp := q.kind.ptr_cases
  have hfin := hw.fin
  unfold Image.importFn lookVal
  by_cases hn : f.name = []
  · obtain ⟨h1, h2, -⟩ := hf.unnamed hn
    rw [if_pos hn, if_pos]
    · have : (f.ordinal ||| 2 ^ (8 * q.kind.ptr - 1)) % 65536 = f.ordinal := by
        rcases hp with hp | hp <;> rw [hp]
        · rw [show 8 * 4 - 1 = 31 by decide, snap_or (by omega)]; omega
        · rw [show 8 * 8 - 1 = 63 by decide, snap_or (by omega)]; omega
      rw [this]
      obtain ⟨n, h, o, v⟩ := f
      dsimp only at hn h1 ⊢
      rw [hn, h1]
    · exact snap_bit _ _
  · obtain ⟨h1, h2⟩ := hf.named hn
    have hs : fnStr f = leBytes 2 f.hint ++ (f.name ++ [0]) := by unfold fnStr; rw [if_neg hn]
    rw [hs] at ha
    have hl := ha.1
    simp only [List.length_append, leBytes_length, List.length_singleton] at hl
    have hlen : 0 < f.name.length := List.length_pos_iff.mpr hn
    rw [if_neg hn, if_neg]
    · have hb := (ha.right (n := ps + 2) (by rw [leBytes_length]))
      rw [throwIf_neg (by omega), ok_bind, show w32 (va + ps + 2) = va + (ps + 2) by rw [w32, Nat.mod_eq_of_lt (by omega)]; omega,
        hw.strAt hb (by omega) hf.name, ok_bind, show w32 (va + ps) = va + ps by rw [w32, Nat.mod_eq_of_lt (by omega)],
        hw.readInt_at true ha.left (by omega) (by omega), ok_bind]
      obtain ⟨n, h, o, v⟩ := f
      dsimp only at h2 ⊢
      rw [h2]
    · rw [Nat.testBit_lt_two_pow]
      · simp
      · rcases hp with hp | hp
        · have := hlow hp hn; rw [hp]; omega
        · rw [hp]; omega

/-- What is read: the IAT values come from the written table. -/
def readFns (ptr : Nat) (b : Bool) (va : Nat) : Nat → List ImportFn → List ImportFn
  | _, [] => []
  | ps, f :: fs => { f with iatVa := iatVal ptr b va ps f } :: readFns ptr b va (ps + (fnStr f).length) fs

theorem readFns_orig (ptr va ps : Nat) (fs : List ImportFn) : readFns ptr true va ps fs = fs := by
  induction fs generalizing ps with
  | nil => rfl
  | cons f fs ih => rw [readFns, ih]; rfl

theorem readFns_shown (ptr : Nat) (b : Bool) (va ps : Nat) (fs : List ImportFn) :
    (readFns ptr b va ps fs).map (fun f => (f.name, f.hint, f.ordinal)) = fs.map (fun f => (f.name, f.hint, f.ordinal)) := by
  induction fs generalizing ps with
  | nil => rfl
  | cons f fs ih => rw [readFns, List.map_cons, List.map_cons, ih]

theorem iatVal_ok {ptr va ps : Nat} (hp : ptr = 4 ∨ ptr = 8) {f : ImportFn} {b : Bool} (hf : f.Ok ptr b)
    (h : va + ps < 2 ^ 32) (h0 : 0 < va) : iatVal ptr b va ps f ≠ 0 ∧ iatVal ptr b va ps f < 256 ^ ptr := by
  unfold iatVal
  cases b with
  | true => exact hf.iat rfl
  | false => exact ⟨lookVal_ne hp (fun hn => (hf.unnamed hn).2.1) h0, lookVal_lt hp (fun hn => (hf.unnamed hn).2.1) h⟩

/-- The thunks of a library. -/
theorem importThunks_eq {q : Image} {va : Nat} {m : Bytes} {s : Sec} (hw : Window q va m s) (h0 : 0 < va) {b : Bool} :
    ∀ (fs : List ImportFn) (ps pi po : Nat), At m ps (fnStrs fs) →
      At m pi (iatBytes q.kind.ptr b va ps fs ++ leBytes q.kind.ptr 0) →
      (b = true → At m po (lookBytes q.kind.ptr va ps fs ++ leBytes q.kind.ptr 0)) → (b = false → po = pi) →
      (∀ f ∈ fs, f.Ok q.kind.ptr b) → (q.kind.ptr = 4 → va + ps + (fnStrs fs).length ≤ 2 ^ 31) →
      q.importThunks (va + pi) (va + po) = .ok (readFns q.kind.ptr b va ps fs) := by
  intro fs
  have hp := q.kind.ptr_cases
  have hfin := hw.fin
  have hz : (0 : Nat) < 256 ^ q.kind.ptr := by rcases hp with hp | hp <;> rw [hp] <;> decide
  induction fs with
  | nil =>
    intro ps pi po _ h2 _ _ _ _
    rw [Image.importThunks, hw.readInt_at true (v := 0) h2 (by omega) hz, ok_bind, if_pos rfl]
    rfl
  | cons f fs ih =>
    intro ps pi po h1 h2 h3 h4 h5 h6
    simp only [fnStrs, iatBytes, lookBytes, List.length_append, List.append_assoc] at h1 h2 h3 h6
    have l1 := h1.1
    have l2 := h2.1
    simp only [List.length_append, leBytes_length] at l1 l2
    have hf := h5 f List.mem_cons_self
    obtain ⟨v1, v2⟩ := iatVal_ok hp hf (va := va) (ps := ps) (by omega) h0
    have hlook : q.readInt q.kind.ptr (va + po) .virt true = .ok (lookVal q.kind.ptr va ps f) := by
      cases b with
      | true => exact hw.readInt_at true (h3 rfl).left (by omega) (lookVal_lt hp (fun hn => (hf.unnamed hn).2.1) (by omega))
      | false =>
        rw [h4 rfl]
        exact hw.readInt_at true h2.left (by omega) v2
    have hpo : po + q.kind.ptr + q.kind.ptr ≤ m.length := by
      cases b with
      | true =>
        have := (h3 rfl).1
        simp only [List.length_append, leBytes_length] at this
        omega
      | false => rw [h4 rfl]; omega
    rw [Image.importThunks, hw.readInt_at true h2.left (by omega) v2, ok_bind, if_neg v1, hlook, ok_bind,
      if_neg (lookVal_ne hp (fun hn => (hf.unnamed hn).2.1) h0),
      importFn_eq hw hf h1.left (fun h4 hne => by
        have := h6 h4
        have := fnStr_length f
        rw [if_neg hne] at this
        omega), ok_bind,
      show w32 (va + pi + q.kind.ptr) = va + (pi + q.kind.ptr) by rw [w32, Nat.mod_eq_of_lt (by omega)]; omega,
      show w32 (va + po + q.kind.ptr) = va + (po + q.kind.ptr) by rw [w32, Nat.mod_eq_of_lt (by omega)]; omega,
      dif_pos (by omega),
      ih (ps + (fnStr f).length) (pi + q.kind.ptr) (po + q.kind.ptr) (h1.right rfl) (h2.right (by rw [leBytes_length]))
        (fun hb => (h3 hb).right (by rw [leBytes_length])) (fun hb => by rw [h4 hb])
        (fun g hg => h5 g (List.mem_cons_of_mem _ hg)) (fun h => by have := h6 h; omega), ok_bind]
    rfl

/-- The tables of a library. -/
theorem importTables_eq {q : Image} {va : Nat} {m : Bytes} {s : Sec} (hw : Window q va m s) (h0 : 0 < va) {b : Bool}
    (fs : List ImportFn) (ps pi po : Nat) (h1 : At m ps (fnStrs fs))
    (h2 : At m pi (iatBytes q.kind.ptr b va ps fs ++ leBytes q.kind.ptr 0))
    (h3 : b = true → At m po (lookBytes q.kind.ptr va ps fs ++ leBytes q.kind.ptr 0))
    (h5 : ∀ f ∈ fs, f.Ok q.kind.ptr b) (h6 : q.kind.ptr = 4 → va + ps + (fnStrs fs).length ≤ 2 ^ 31) :
    q.importTables (va + pi) (if b then va + po else 0) = .ok (readFns q.kind.ptr b va ps fs) := by
  have hp := q.kind.ptr_cases
  have hfin := hw.fin
  have hz : (0 : Nat) < 256 ^ q.kind.ptr := by rcases hp with hp | hp <;> rw [hp] <;> decide
  have hth := importThunks_eq hw h0 fs ps pi (if b then po else pi) h1 h2 (fun hb => by rw [if_pos hb]; exact h3 hb)
    (fun hb => by rw [hb]; rfl) h5 h6
  unfold Image.importTables Image.importLookup0
  cases fs with
  | nil =>
    rw [hw.readInt_at true (v := 0) h2 (by omega) hz, ok_bind]
    cases b with
    | true =>
      simp only [if_true]
      rw [if_neg (by omega), hw.readInt_at true (v := 0) (h3 rfl) (by omega) hz, ok_bind, if_neg (by simp)]; rfl
    | false => simp; rfl
  | cons f fs =>
    have l1 := h1.1
    simp only [fnStrs, iatBytes, lookBytes, List.length_append, List.append_assoc] at h1 h2 h3 l1
    have hf := h5 f List.mem_cons_self
    obtain ⟨v1, v2⟩ := iatVal_ok hp hf (va := va) (ps := ps) (by omega) h0
    rw [hw.readInt_at true h2.left (by omega) v2, ok_bind]
    cases b with
    | true =>
      simp only [if_true] at hth ⊢
      rw [if_neg (by omega), hw.readInt_at true (h3 rfl).left (by omega) (lookVal_lt hp (fun hn => (hf.unnamed hn).2.1) (by omega)), ok_bind,
        if_pos ⟨lookVal_ne hp (fun hn => (hf.unnamed hn).2.1) h0, v1⟩, if_neg (by omega)]
      exact hth
    | false =>
      simp only [Bool.false_eq_true, if_false, if_true] at hth ⊢
      rw [ok_bind, if_pos ⟨v1, v1⟩]
      exact hth

/-! ### Libraries -/

/-- What is read for a list of libraries. -/
def readLibs (c : ImportCfg) (ptr va : Nat) : (ps pi po : Nat) → List ImportLib → List ImportLib
  | _, _, _, [] => []
  | ps, pi, po, l :: ls =>
    { name := l.name, stamp := l.stamp, rvaIat := libFt c va pi l, rvaOrig := libOft c va po l,
      funcs := if libW c l then readFns ptr c.buildOrig va (ps + (l.name.length + 1)) l.funcs else l.funcs } ::
      readLibs c ptr va (ps + (libStr l).length) (pi + (libIat c ptr va ps l).length) (po + (libOrig c ptr va ps l).length) ls

theorem rd_importDescr {a b c d : Nat} (ha : a < 2 ^ 32) (hb : b < 2 ^ 32) (hc : c < 2 ^ 32) (hd : d < 2 ^ 32) :
    rd 4 (importDescr a b c d) 0 = a ∧ rd 4 (importDescr a b c d) 4 = b ∧ rd 4 (importDescr a b c d) 12 = c ∧
      rd 4 (importDescr a b c d) 16 = d := by
  have hfs : ∀ f ∈ [(4, a), (4, b), (4, 0), (4, c), (4, d)], f.2 < 256 ^ f.1 := by
    simp only [List.forall_mem_cons]
    refine ⟨by omega, by omega, by omega, by omega, by omega, by simp⟩
  have key : ∀ k w v off, [(4, a), (4, b), (4, 0), (4, c), (4, d)][k]? = some (w, v) →
      (([(4, a), (4, b), (4, 0), (4, c), (4, d)].take k).map Prod.fst).sum = off → rd w (importDescr a b c d) off = v := by
    intro k w v off ha hb
    have := rd_enc_nth [] hfs ha hb
    rwa [List.append_nil] at this
  exact ⟨key 0 _ _ _ rfl rfl, key 1 _ _ _ rfl rfl, key 3 _ _ _ rfl rfl, key 4 _ _ _ rfl rfl⟩

theorem Window.readT_at {p : Image} {va : Nat} {m : Bytes} {s : Sec} (h : Window p va m s) (hdrs : Bool) {o n : Nat} {x : Bytes}
    (ha : At m o x) (hn : 0 < n) (hx : x.length = n) : p.readT n (va + o) .virt hdrs = .ok x := by
  have := ha.1
  rw [h.readT hdrs o n (by omega) (by omega), ← hx, ha.2]

/-- The first 20 bytes of the descriptors. -/
theorem descBytes_split (c : ImportCfg) (ptr va ps pi po : Nat) (ls : List ImportLib) :
    ∃ x y, descBytes c ptr va ps pi po ls = x ++ y ∧ x.length = 20 := by
  cases ls with
  | nil => exact ⟨zeros 20, [], by simp [descBytes], by simp⟩
  | cons l ls => exact ⟨_, _, rfl, importDescr_length _ _ _ _⟩

theorem rd_zero20 : rd 4 (zeros 20) 12 = 0 := by decide

theorem importLoop_eq {p q : Image} {i : Nat} {va : Nat} {m : Bytes} {s : Sec} (hw : Window q va m s) (h0 : 0 < va) {c : ImportCfg}
    (hwi : Within { p with secs := p.secs.eraseIdx i } q) :
    ∀ (ls : List ImportLib) (ps pi po pd : Nat) (d : Bytes), At m ps (libStrs ls) → At m pd (descBytes c q.kind.ptr va ps pi po ls) →
      At m pi (libIats c q.kind.ptr va ps ls) → At m po (libOrigs c q.kind.ptr va ps ls) → At m pd d → d.length = 20 →
      (∀ l ∈ ls, l.Ok p i c.save c.buildOrig) → (q.kind.ptr = 4 → va + ps + (libStrs ls).length ≤ 2 ^ 31) → ps + (libStrs ls).length + 1 ≤ m.length →
      q.importLoop (va + pd) d = .ok (readLibs c q.kind.ptr va ps pi po ls) := by
  intro ls
  have hp := q.kind.ptr_cases
  have hfin := hw.fin
  induction ls with
  | nil =>
    intro ps pi po pd d _ h2 _ _ h5 h6 _ _ _
    have hd : d = zeros 20 := by
      have a := h5.2
      have b := h2.2
      simp only [descBytes, zeros_length] at b
      rw [h6] at a
      rw [← a, b]
    rw [Image.importLoop, if_pos (by rw [hd]; exact rd_zero20)]
    rfl
  | cons l ls ih =>
    intro ps pi po pd d h1 h2 h3 h4 h5 h6 h7 h8 h9
    simp only [libStrs, descBytes, libIats, libOrigs, List.length_append] at h1 h2 h3 h4 h8 h9
    have hl := h7 l List.mem_cons_self
    have hd : d = importDescr (libOft c va po l) l.stamp (va + ps) (libFt c va pi l) := by
      have a := h5.2
      have b := h2.left.2
      rw [importDescr_length] at b
      rw [h6] at a
      rw [← a, b]
    have l1 := h1.1
    have l2 := h2.1
    have l3 := h3.1
    have l4 := h4.1
    simp only [List.length_append, importDescr_length, descBytes_length] at l1 l2 l3 l4
    have lls := libStr_length l
    have hkept : libW c l = false → l.rvaIat < 2 ^ 32 ∧ l.rvaOrig < 2 ^ 32 ∧
        q.importTables l.rvaIat (if c.buildOrig then l.rvaOrig else 0) = .ok l.funcs := by
      intro hc
      have hk : l.Kept c.save := by
        refine Decidable.byContradiction (fun h => ?_)
        rw [(libW_iff c l).mpr h] at hc; cases hc
      obtain ⟨k1, k2, k3⟩ := hl.kept hk
      exact ⟨k1, k2, hwi.importTables k3⟩
    have hoft : libOft c va po l < 2 ^ 32 := by
      unfold libOft
      split
      · split
        · omega
        · next hc => exact (hkept (by simpa using hc)).2.1
      · omega
    have hft : libFt c va pi l < 2 ^ 32 := by
      unfold libFt
      split
      · omega
      · next hc => exact (hkept (by simpa using hc)).1
    obtain ⟨r1, r2, r3, r4⟩ := rd_importDescr hoft hl.stamp (c := va + ps) (by omega) hft
    rw [← hd] at r1 r2 r3 r4
    have ha := h1.left
    unfold libStr at ha
    obtain ⟨x, y, hxy, hx⟩ := descBytes_split c q.kind.ptr va (ps + (libStr l).length) (pi + (libIat c q.kind.ptr va ps l).length)
      (po + (libOrig c q.kind.ptr va ps l).length) ls
    have hnext := h2.right (n := pd + 20) (by rw [importDescr_length])
    have hxat : At m (pd + 20) x := by rw [hxy] at hnext; exact hnext.left
    have htab : q.importTables (libFt c va pi l) (libOft c va po l) =
        .ok (if libW c l then readFns q.kind.ptr c.buildOrig va (ps + (l.name.length + 1)) l.funcs else l.funcs) := by
      cases hc : libW c l with
      | false =>
        have := (hkept hc).2.2
        unfold libFt libOft
        rw [hc]
        simpa using this
      | true =>
        have hb : libB c l = c.buildOrig := by unfold libB; rw [hc]; rfl
        have hfresh := hl.fresh ((libW_iff c l).mp hc)
        unfold libFt libOft
        rw [hc]
        simp only [if_true]
        refine importTables_eq hw h0 l.funcs (ps + (l.name.length + 1)) pi po (ha.right (by simp)) ?_ ?_ ?_ ?_
        · have := h3.left; unfold libIat at this; rw [hc, hb] at this; exact this
        · intro hb'
          have := h4.left; unfold libOrig at this; rw [hb, hb'] at this; exact this
        · rw [hwi.kind]; exact hfresh
        · intro h; have := h8 h; omega
    rw [Image.importLoop, r3, if_neg (by omega), hw.strAt ha.left (by omega) hl.name, ok_bind, r1, r4, htab, ok_bind,
      dif_pos (by unfold isSumSafe; rw [decide_eq_true_eq]; omega), Nat.add_assoc, hw.readT_at true hxat (by omega) hx, ok_bind,
      ih (ps + (libStr l).length) (pi + (libIat c q.kind.ptr va ps l).length) (po + (libOrig c q.kind.ptr va ps l).length) (pd + 20) x
        (h1.right rfl) hnext (h3.right rfl) (h4.right rfl) hxat hx (fun g hg => h7 g (List.mem_cons_of_mem _ hg))
        (fun h => by have := h8 h; omega) (by omega), ok_bind, r2]
    rfl

end PE
