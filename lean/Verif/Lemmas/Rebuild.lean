/-
Lemmas about the PE rebuilder.
-/
import Verif.Model.Rebuild
import Verif.Spec.Rebuild
import Verif.Lemmas.Align
import Verif.Lemmas.Dirs
import Verif.Lemmas.Header
namespace PE

/-- The changed NT headers. -/
def rebuiltNt (p : Image) (strip chg save : Bool) : NtHdr :=
  { p.nt with
    baseOfCode := if strip then 16 else p.nt.baseOfCode,
    dirs := if save = true ∧ p.HasBound then p.nt.dirs.set 11 (w32 (p.tableEnd strip), p.boundDir.2) else p.nt.dirs,
    sizeHeaders := if chg then w32 (p.dataStart strip save) else p.nt.sizeHeaders,
    numSections := w16 p.secs.length,
    sizeImage := match p.secs.getLast? with
      | some s => w32 (s.va + s.alignedVS p.nt.secAlign)
      | none => if chg then w32 (p.dataStart strip save) else p.nt.sizeHeaders,
    sizeOptHdr := w16 (p.kind.sizeofOpt - 8 * (16 - p.nt.numRva)) }

/-- The changed image. -/
def rebuiltImage (p : Image) (strip chg save : Bool) : Image :=
  { p with
    stub := if strip then [] else p.stub,
    nt := rebuiltNt p strip chg save,
    secs := placeSecs p.nt.fileAlign (p.dataStart strip save) p.secs }

theorem dirGap_eq {h : NtHdr} (hn : h.numRva ≤ 16) : h.dirGap = 8 * (16 - h.numRva) := by
  unfold NtHdr.dirGap sub32; omega

theorem ptr_calc {p : Image} (hs : p.Sized) (strip : Bool) : (p.stripDos strip).tablePtr strip = p.tableEnd strip := by
  have h1 := hs.dirs.count
  have h2 := hs.stub
  have h3 := hs.secs
  have hk : p.kind.sizeofNt = 248 ∨ p.kind.sizeofNt = 264 := by cases p.kind <;> simp [Kind.sizeofNt]
  have hc := ceilTo_lt (x := p.stub.length) (a := 4) (by decide)
  unfold Image.tableEnd Image.ntStart Image.tablePtr
  cases strip
  · simp only [Image.stripDos, if_false, Bool.false_eq_true]
    rw [dirGap_eq h1, alignUp64_eq pow2_4 (by omega)]
    unfold w64 sub64
    omega
  · simp only [Image.stripDos, if_true]
    have e : ({ p.nt with baseOfCode := 16 } : NtHdr).dirGap = 8 * (16 - p.nt.numRva) := dirGap_eq h1
    rw [e, alignUp64_eq pow2_4 (by simp)]
    simp only [List.length_nil, ceilTo_zero]
    unfold w64 sub64
    omega

theorem lf_calc {p : Image} (hs : p.stub.length < 2147483584) (strip : Bool) :
    (p.stripDos strip).newLfanew strip = if strip then p.lfanew else p.ntStart false := by
  unfold Image.newLfanew
  cases strip
  · simp only [Image.stripDos, if_false, Bool.false_eq_true, Image.ntStart]
    have e : w32 p.stub.length = p.stub.length := by unfold w32; omega
    have hc := ceilTo_lt (x := p.stub.length) (a := 4) (by decide)
    rw [e, alignUp_of_le pow2_4 (by omega) (by omega)]
    unfold w32; omega
  · simp [Image.stripDos]

theorem stripDos_nt (p : Image) (strip : Bool) :
    (p.stripDos strip).nt = { p.nt with baseOfCode := if strip then 16 else p.nt.baseOfCode } := by
  cases strip <;> rfl

theorem stripDos_boundDir (p : Image) (strip : Bool) : (p.stripDos strip).boundDir = p.boundDir := by
  cases strip <;> rfl

theorem hasBound_dir {h : NtHdr} (ho : h.DirsOk) {id : Nat} :
    h.directoryExists id = .ok (if h.numRva = 0 then decide (id < 16 ∧ (h.dirs[id]?.getD (0, 0)).1 ≠ 0) else decide (id < h.numRva ∧ (h.dirs[id]?.getD (0, 0)).1 ≠ 0)) ∨ 16 ≤ id := by
  by_cases hi : 16 ≤ id
  · exact .inr hi
  refine .inl ?_
  by_cases h0 : h.numRva = 0
  · rw [if_pos h0]
    unfold NtHdr.directoryExists
    have : sub32 h.numRva 1 ≥ id := by rw [h0]; unfold sub32; omega
    rw [if_pos this, NtHdr.dirAt_ok (by have := ho.slots; omega), ok_bind]
    have hsl := ho.slots
    have hlt : id < h.dirs.length := by omega
    have h16 : id < 16 := by omega
    have := List.getElem?_eq_getElem hlt
    rw [this]
    generalize h.dirs[id] = d
    congr 1
    by_cases hd : d.1 = 0 <;> simp [hd, h16]
  · rw [if_neg h0, NtHdr.directoryExists_eq ho (by omega)]
    simp

theorem finish_eq {p : Image} (hs : p.Sized) (strip chg save : Bool) :
    (p.stripDos strip).finishHeaders (({ (p.stripDos strip).nt with
      dirs := if save = true ∧ p.HasBound then p.nt.dirs.set 11 (w32 (p.tableEnd strip), p.boundDir.2) else p.nt.dirs } : NtHdr).resizeHeaders
        chg (p.dataStart strip save)) (p.dataStart strip save) = rebuiltImage p strip chg save := by
  have h1 := hs.dirs.count
  have hk : p.kind.sizeofOpt = 224 ∨ p.kind.sizeofOpt = 240 := by cases p.kind <;> simp [Kind.sizeofOpt]
  have he : sub64 p.kind.sizeofOpt (8 * (16 - p.nt.numRva)) = p.kind.sizeofOpt - 8 * (16 - p.nt.numRva) := by
    unfold sub64; omega
  unfold rebuiltImage rebuiltNt
  rw [← he]
  generalize (if save = true ∧ p.HasBound then p.nt.dirs.set 11 (w32 (p.tableEnd strip), p.boundDir.2) else p.nt.dirs) = ds
  generalize p.dataStart strip save = x
  unfold Image.finishHeaders Image.updateImageSize NtHdr.resizeHeaders Image.stripDos
  cases strip <;> cases chg <;> cases hl : p.secs.getLast? <;>
    simp [hl, dirGap_eq, h1]

theorem rebuildHeaders_eq {p : Image} (hs : p.Sized) (fa : Pow2 p.nt.fileAlign) {strip chg save : Bool} {q : Image} {lf : Nat}
    (h : p.rebuildHeaders strip chg save = .ok (q, lf)) :
    q = rebuiltImage p strip chg save ∧
    lf = (p.stripDos strip).newLfanew strip ∧
    (chg = true → ∀ s, p.secs.head? = some s → w32 (p.dataStart strip save) ≤ s.va) := by
  unfold Image.rebuildHeaders at h
  dsimp only at h
  rw [ptr_calc hs] at h
  obtain ⟨has, hhas, h⟩ := bind_ok_iff.mp h
  obtain ⟨⟨nt, ptr⟩, hnp, h⟩ := bind_ok_iff.mp h
  unfold NtHdr.placeBound at hnp
  unfold Image.boundWanted at hhas
  dsimp only at h
  have ho : (p.stripDos strip).nt.DirsOk := by
    rw [stripDos_nt]; exact ⟨hs.dirs.slots, hs.dirs.count⟩
  have hfa : (p.stripDos strip).nt.fileAlign = p.nt.fileAlign := by rw [stripDos_nt]
  have hpe : p.tableEnd strip < 4294967296 * 100 := by
    have h1 := hs.stub
    have h2 := hs.secs
    have hc := ceilTo_lt (x := p.stub.length) (a := 4) (by decide)
    have hk : p.kind.sizeofNt = 248 ∨ p.kind.sizeofNt = 264 := by cases p.kind <;> simp [Kind.sizeofNt]
    unfold Image.tableEnd Image.ntStart
    split <;> omega
  have key : nt = { (p.stripDos strip).nt with dirs := if save = true ∧ p.HasBound then p.nt.dirs.set 11 (w32 (p.tableEnd strip), p.boundDir.2) else p.nt.dirs } ∧
      ptr = p.tableEnd strip + p.boundSize save := by
    have hd0 : (p.stripDos strip).nt.dirs = p.nt.dirs := by rw [stripDos_nt]
    have hn0 : (p.stripDos strip).nt.numRva = p.nt.numRva := by rw [stripDos_nt]
    by_cases hsv : save = true
    · rw [if_pos hsv] at hhas
      rcases hasBound_dir ho (id := dirBoundImport) with he | he
      · unfold Image.hasDir at hhas
        rw [he] at hhas
        injection hhas with hhas
        cases has
        · simp only [Bool.false_eq_true, if_false, Except.ok.injEq, Prod.mk.injEq] at hnp
          have hnb : ¬ p.HasBound := by
            intro ⟨hb1, hb2⟩
            rw [if_neg (by rw [hn0]; omega), decide_eq_false_iff_not] at hhas
            apply hhas
            rw [hd0, hn0]
            exact ⟨hb1, hb2⟩
          rw [if_neg (fun h => hnb h.2), ← hd0, ← hnp.1, ← hnp.2]
          unfold Image.boundSize
          rw [if_neg (fun h => hnb h.2)]
          exact ⟨rfl, by omega⟩
        · simp only [if_true] at hnp
          by_cases hid : ¬ dirBoundImport < (p.stripDos strip).nt.numRva
          · unfold NtHdr.setDirRva at hnp
            rw [if_pos (by omega), throwE_bind] at hnp
            cases hnp
          replace hid := Decidable.not_not.mp hid
          rw [setDir_rva ho hid, ok_bind] at hnp
          have hsl := ho.slots
          have hgd := getDir_stored (h := { (p.stripDos strip).nt with
              dirs := (p.stripDos strip).nt.dirs.set dirBoundImport (w32 (p.tableEnd strip), ((p.stripDos strip).nt.dirs[dirBoundImport]?.getD (0, 0)).2) }) (DirsOk.set ho _ _) hid
              (d := (w32 (p.tableEnd strip), ((p.stripDos strip).nt.dirs[dirBoundImport]?.getD (0, 0)).2))
              (by simp [List.getElem?_set_self (show dirBoundImport < (p.stripDos strip).nt.dirs.length by rw [hsl]; decide)])
          rw [hgd.2.1, ok_bind] at hnp
          simp only [Except.ok.injEq, Prod.mk.injEq] at hnp
          have hb : p.HasBound := by
            rw [if_neg (by omega), decide_eq_true_eq, hd0, hn0] at hhas
            exact hhas
          rw [if_pos ⟨hsv, hb⟩]
          have hbd : ((p.stripDos strip).nt.dirs[dirBoundImport]?.getD (0, 0)).2 = p.boundDir.2 := by rw [hd0]; rfl
          rw [hbd] at hnp
          refine ⟨by rw [← hnp.1, hd0]; rfl, ?_⟩
          rw [← hnp.2]
          unfold Image.boundSize
          rw [if_pos ⟨hsv, hb⟩]
          have := hs.bound
          unfold w64; omega
      · exact absurd he (by decide)
    · rw [if_neg hsv] at hhas
      injection hhas with hhas
      subst hhas
      simp only [Bool.false_eq_true, if_false, Except.ok.injEq, Prod.mk.injEq] at hnp
      rw [if_neg (fun h => hsv h.1), ← hd0, ← hnp.1, ← hnp.2]
      unfold Image.boundSize
      rw [if_neg (fun h => hsv h.1)]
      exact ⟨rfl, by omega⟩
  obtain ⟨hnt, hptr⟩ := key
  have hbs : p.boundSize save < 4294967296 := by
    unfold Image.boundSize; split
    · exact hs.bound
    · omega
  have hal : alignUp64 ptr nt.fileAlign = p.dataStart strip save := by
    rw [hptr, hnt]
    dsimp only
    rw [hfa, alignUp64_eq fa (by omega)]
    rfl
  rw [hal] at h
  rw [throwIf_bind_ok_iff] at h
  obtain ⟨hthrow, h⟩ := h
  injection h with h
  injection h with hq hlf
  refine ⟨?_, hlf.symm, ?_⟩
  · rw [← hq, hnt]
    exact finish_eq hs strip chg save
  · intro hc s hsx
    have : (p.stripDos strip).secs = p.secs := by cases strip <;> rfl
    by_cases hgt : w32 (p.dataStart strip save) > s.va
    · exact absurd ⟨hc, by rw [this, hsx]; simpa using hgt⟩ hthrow
    · omega

theorem rawOffset_zero (fa start : Nat) (l : List Sec) : rawOffset fa start l 0 = start := by
  unfold rawOffset; simp

theorem rawOffset_succ (fa start : Nat) (s : Sec) (l : List Sec) (i : Nat) :
    rawOffset fa start (s :: l) (i + 1) = rawOffset fa (start + ceilTo s.rawSize fa) l i := by
  unfold rawOffset; simp; omega

theorem rawOffset_ge (fa start : Nat) (l : List Sec) (i : Nat) : start ≤ rawOffset fa start l i := by
  unfold rawOffset; omega

theorem rawOffset_add (fa start d : Nat) (l : List Sec) (i : Nat) :
    rawOffset fa (start + d) l i = rawOffset fa start l i + d := by
  unfold rawOffset; omega

theorem rawOffset_mono {fa start : Nat} {l : List Sec} {i j : Nat} (h : i ≤ j) :
    rawOffset fa start l i ≤ rawOffset fa start l j := by
  induction l generalizing start i j with
  | nil => simp [rawOffset]
  | cons s l ih =>
    cases j with
    | zero => simp [show i = 0 by omega]
    | succ j =>
      cases i with
      | zero => rw [rawOffset_zero]; exact rawOffset_ge _ _ _ _
      | succ i => rw [rawOffset_succ, rawOffset_succ]; exact ih (by omega)

theorem rawOffset_next {fa start : Nat} {l : List Sec} {i : Nat} {s : Sec} (h : l[i]? = some s) :
    rawOffset fa start l (i + 1) = rawOffset fa start l i + ceilTo s.rawSize fa := by
  induction l generalizing start i with
  | nil => simp at h
  | cons x l ih =>
    cases i with
    | zero =>
      simp only [List.getElem?_cons_zero, Option.some.injEq] at h
      subst h
      rw [rawOffset_succ, rawOffset_zero, rawOffset_zero]
    | succ i => rw [rawOffset_succ, rawOffset_succ]; exact ih (by simpa using h)

theorem rawOffset_dvd {fa start : Nat} (hd : fa ∣ start) (l : List Sec) (i : Nat) : fa ∣ rawOffset fa start l i := by
  induction l generalizing start i with
  | nil => simpa [rawOffset] using hd
  | cons s l ih =>
    cases i with
    | zero => rw [rawOffset_zero]; exact hd
    | succ i => rw [rawOffset_succ]; exact ih (Nat.dvd_add hd (ceilTo_dvd _ _)) i

theorem placeSecs_length (fa ptr : Nat) (l : List Sec) : (placeSecs fa ptr l).length = l.length := by
  induction l generalizing ptr with
  | nil => rfl
  | cons s l ih => unfold placeSecs; split <;> simp [ih]

theorem placeSecs_get {fa : Nat} (hfa : Pow2 fa) {ptr : Nat} {l : List Sec} (hr : ∀ s ∈ l, s.rawSize < 4294967296)
    (ht : rawOffset fa ptr l l.length < 4294967296) (i : Nat) :
    (placeSecs fa ptr l)[i]? =
      (l[i]?).map (fun s => if s.rawSize = 0 then s else { s with rawPtr := rawOffset fa ptr l i }) := by
  induction l generalizing ptr i with
  | nil => simp [placeSecs]
  | cons s l ih =>
    have hlen : (s :: l).length = l.length + 1 := rfl
    rw [hlen, rawOffset_succ] at ht
    have hge := rawOffset_ge fa (ptr + ceilTo s.rawSize fa) l l.length
    unfold placeSecs
    by_cases h0 : s.rawSize = 0
    · rw [if_neg (by omega)]
      rw [h0, ceilTo_zero, Nat.add_zero] at ht
      cases i with
      | zero => simp [h0]
      | succ i =>
        rw [rawOffset_succ, h0, ceilTo_zero, Nat.add_zero]
        simpa using ih (fun s hs => hr s (by simp [hs])) ht i
    · rw [if_pos h0]
      have hal : s.alignedRS fa = ceilTo s.rawSize fa := by
        unfold Sec.alignedRS; rw [if_pos h0, alignUp_of_le hfa (hr s (by simp)) (by omega)]
      have hw : w64 (ptr + s.alignedRS fa) = ptr + ceilTo s.rawSize fa := by rw [hal]; unfold w64; omega
      rw [hw]
      cases i with
      | zero => simp [h0, rawOffset_zero, w32]; omega
      | succ i =>
        rw [rawOffset_succ]
        simpa using ih (fun s hs => hr s (by simp [hs])) ht i

/-- The sections are placed one after the other from `ptr` on. -/
def Placed (fa : Nat) : Nat → List Sec → Prop
  | _, [] => True
  | ptr, s :: l => (s.rawSize ≠ 0 → s.rawPtr = ptr) ∧ (s.rawSize = 0 → s.rawPtr ≤ ptr) ∧
    Placed fa (ptr + ceilTo s.rawSize fa) l

theorem placed_placeSecs {fa : Nat} (hfa : Pow2 fa) {ptr : Nat} {l : List Sec} (hr : ∀ s ∈ l, s.rawSize < 4294967296)
    (ht : rawOffset fa ptr l l.length < 4294967296) (hst : NoStalePointers fa ptr l) : Placed fa ptr (placeSecs fa ptr l) := by
  induction l generalizing ptr with
  | nil => trivial
  | cons s l ih =>
    have hlen : (s :: l).length = l.length + 1 := rfl
    rw [hlen, rawOffset_succ] at ht
    have hge := rawOffset_ge fa (ptr + ceilTo s.rawSize fa) l l.length
    have hst' : NoStalePointers fa (ptr + ceilTo s.rawSize fa) l := by
      intro i t hi h0
      have := hst (i + 1) t (by simpa using hi) h0
      rwa [rawOffset_succ] at this
    unfold placeSecs
    by_cases h0 : s.rawSize = 0
    · rw [if_neg (by omega)]
      refine ⟨fun h => absurd h0 h, fun _ => ?_, ?_⟩
      · have := hst 0 s (by simp) h0
        rwa [rawOffset_zero] at this
      · rw [h0, ceilTo_zero, Nat.add_zero] at ht hst' ⊢
        exact ih (fun s hs => hr s (by simp [hs])) ht hst'
    · rw [if_pos h0]
      have hal : s.alignedRS fa = ceilTo s.rawSize fa := by
        unfold Sec.alignedRS; rw [if_pos h0, alignUp_of_le hfa (hr s (by simp)) (by omega)]
      have hw : w64 (ptr + s.alignedRS fa) = ptr + ceilTo s.rawSize fa := by rw [hal]; unfold w64; omega
      rw [hw]
      refine ⟨fun _ => ?_, fun h => absurd h h0, ih (fun s hs => hr s (by simp [hs])) ht hst'⟩
      show w32 ptr = ptr
      unfold w32; omega

theorem resize_of_readable {b : Bytes} {n : Nat} (h : n ≤ b.length + 1) : slice (b ++ [0]) 0 n = resize b n := by
  unfold slice resize
  rw [List.drop_zero, List.take_append]
  by_cases hn : n ≤ b.length
  · rw [show n - b.length = 0 by omega]; simp
  · rw [show n - b.length = 1 by omega]; rfl

/-- What `writeSecs` writes for sections in place. -/
theorem writeSecs_spec {fa : Nat} (hfa : 0 < fa) {l : List Sec} {ptr : Nat} {head r : Bytes} (hp : Placed fa ptr l) (hpos : head.length ≤ ptr)
    (h : writeSecs head.length l = .ok r) :
    head.length + r.length ≤ rawOffset fa ptr l l.length ∧
    (∀ s ∈ l, s.rawSize ≠ 0 → s.rawPtr + s.rawSize ≤ head.length + r.length ∧
      slice (head ++ r) s.rawPtr s.rawSize = resize s.data s.rawSize) ∧
    (∀ o b, head.length ≤ o → (head ++ r)[o]? = some b →
      (∀ s ∈ l, s.rawSize ≠ 0 → o < s.rawPtr ∨ s.rawPtr + s.rawSize ≤ o) → b = 0) := by
  induction l generalizing ptr head r with
  | nil =>
    unfold writeSecs at h
    cases h
    refine ⟨by simpa [rawOffset] using hpos, by simp, ?_⟩
    intro o b ho hb
    rw [List.append_nil, List.getElem?_eq_none ho] at hb
    cases hb
  | cons s l ih =>
    obtain ⟨h1, h2, h3⟩ := hp
    unfold writeSecs at h
    obtain ⟨d, hd, h⟩ := bind_ok_iff.mp h
    obtain ⟨r', hr', h⟩ := bind_ok_iff.mp h
    injection h with h
    have hread : s.rawSize ≤ s.data.length + 1 := by
      unfold readN at hd
      split at hd
      · next hc => simpa using hc
      · simp at hd
    rw [readN_ok (by simpa using hread), resize_of_readable hread] at hd
    injection hd with hd
    have hdl : d.length = s.rawSize := by rw [← hd]; simp
    have hgeR := ceilTo_ge (x := s.rawSize) hfa
    have hlen : (s :: l).length = l.length + 1 := rfl
    have hle : s.rawPtr ≤ ptr := by
      by_cases h0 : s.rawSize = 0
      · exact h2 h0
      · exact Nat.le_of_eq (h1 h0)
    have hz : (head ++ zeros (s.rawPtr - head.length) ++ d).length = head.length + (s.rawPtr - head.length) + s.rawSize := by
      simp [hdl]; omega
    have hnext : head.length + (s.rawPtr - head.length) + s.rawSize ≤ ptr + ceilTo s.rawSize fa := by omega
    rw [← hz] at hr' hnext
    obtain ⟨i1, i2, i3⟩ := ih h3 hnext hr'
    have happ : head ++ r = (head ++ zeros (s.rawPtr - head.length) ++ d) ++ r' := by
      rw [← h]; simp [List.append_assoc]
    have hrl : head.length + r.length = (head ++ zeros (s.rawPtr - head.length) ++ d).length + r'.length := by
      have := congrArg List.length happ
      rw [List.length_append, List.length_append (bs := r')] at this
      exact this
    rw [happ, hrl]
    refine ⟨?_, ?_, ?_⟩
    · rw [hlen, rawOffset_succ]; exact i1
    · intro t ht h0
      rcases List.mem_cons.mp ht with rfl | ht
      · have hrp := h1 h0
        refine ⟨by rw [hz]; omega, ?_⟩
        rw [slice_append_left (by rw [hz]; omega), slice_append_right (by simp; omega)]
        have : t.rawPtr - (head ++ zeros (t.rawPtr - head.length)).length = 0 := by simp; omega
        rw [this, hd, ← hdl, slice_zero_length]
      · exact i2 t ht h0
    · intro o b ho hb hout
      by_cases hlt : o < (head ++ zeros (s.rawPtr - head.length) ++ d).length
      · rw [List.getElem?_append_left hlt] at hb
        by_cases hlt2 : o < (head ++ zeros (s.rawPtr - head.length)).length
        · rw [List.getElem?_append_left hlt2, List.getElem?_append_right ho] at hb
          unfold zeros at hb
          rw [List.getElem?_replicate] at hb
          split at hb
          · exact (Option.some.inj hb).symm
          · cases hb
        · rw [hz] at hlt
          simp only [List.length_append, zeros_length] at hlt2
          have h0 : s.rawSize ≠ 0 := by omega
          have := h1 h0
          rcases hout s (by simp) h0 with h | h <;> omega
      · exact i3 o b (by omega) hb (fun t ht h0 => hout t (by simp [ht]) h0)

theorem writeSecs_ok (pos : Nat) (l : List Sec) (h : ∀ s ∈ l, s.rawSize ≤ s.data.length + 1) : ∃ r, writeSecs pos l = .ok r := by
  induction l generalizing pos with
  | nil => exact ⟨[], rfl⟩
  | cons s l ih =>
    obtain ⟨r, hr⟩ := ih (pos + (s.rawPtr - pos) + s.rawSize) (fun s hs => h s (by simp [hs]))
    unfold writeSecs
    rw [readN_ok (by simpa using h s (by simp)), ok_bind, hr, ok_bind]
    exact ⟨_, rfl⟩

theorem boundRva_eq {p : Image} (hs : p.Sized) {rva : Nat} (h : p.boundRva = .ok rva) :
    rva = if p.HasBound then p.boundDir.1 else 0 := by
  unfold Image.boundRva at h
  obtain ⟨has, hh, h⟩ := bind_ok_iff.mp h
  unfold Image.hasDir at hh
  rcases hasBound_dir hs.dirs (id := dirBoundImport) with he | he
  · rw [he] at hh
    replace hh := Except.ok.inj hh
    cases has
    · simp only [Bool.false_eq_true, if_false, Except.ok.injEq] at h
      rw [if_neg]
      · exact h.symm
      · intro ⟨a, b⟩
        rw [if_neg (by omega), decide_eq_false_iff_not] at hh
        exact hh ⟨a, b⟩
    · simp only [if_true] at h
      unfold NtHdr.getDirRva at h
      split at h
      · simp at h
      · next hn =>
        rw [if_neg (by omega), decide_eq_true_eq] at hh
        rw [if_pos (show p.HasBound from hh)]
        rw [NtHdr.dirAt_ok (by have := hs.dirs.slots; unfold dirBoundImport; omega)] at h
        replace h := Except.ok.inj h
        rw [← h]
        unfold Image.boundDir
        rw [List.getElem?_eq_getElem (show 11 < p.nt.dirs.length by have := hs.dirs.slots; omega)]
        rfl
  · exact absurd he (by decide)

/-- The bytes before the section data. -/
def headBytes (q : Image) (strip : Bool) (lf : Nat) (bound : Bytes) : Bytes :=
  q.dosBytes strip lf ++ (encFields (ntFields q.kind q.nt) ++ encDirs (q.nt.dirs.take q.nt.numRva) ++
    q.secs.flatMap encSec ++ bound)

theorem rebuildPe_ok {p q : Image} {strip chg sb : Bool} {out : Bytes} (hs : p.Sized) (fa : Pow2 p.nt.fileAlign)
    (h : p.rebuildPe strip chg sb = .ok (q, out)) :
    p.rebuildHeaders strip chg (p.savesBound sb) = .ok (q, (p.stripDos strip).newLfanew strip) ∧
    q = rebuiltImage p strip chg (p.savesBound sb) ∧
    (chg = true → ∀ s, p.secs.head? = some s → w32 (p.dataStart strip (p.savesBound sb)) ≤ s.va) ∧
    ∃ bound data, q.boundBytes (p.savesBound sb) (if p.HasBound then p.boundDir.1 else 0) = .ok bound ∧
      writeSecs (headBytes q strip ((p.stripDos strip).newLfanew strip) bound).length q.secs = .ok data ∧
      out = headBytes q strip ((p.stripDos strip).newLfanew strip) bound ++ data := by
  unfold Image.rebuildPe at h
  obtain ⟨_, _, h⟩ := bind_ok_iff.mp h
  obtain ⟨rva, hrva, h⟩ := bind_ok_iff.mp h
  have hrv := boundRva_eq hs hrva
  dsimp only at h
  have hsv : (sb && !decide (rva ≠ 0 ∧ rva > p.nt.sizeHeaders)) = p.savesBound sb := by
    unfold Image.savesBound
    refine congrArg (fun x => sb && !x) ?_
    rw [decide_eq_decide, hrv]
    by_cases hb : p.HasBound
    · rw [if_pos hb]
      exact ⟨fun h => ⟨hb, h.2⟩, fun h => ⟨hb.2, h.2⟩⟩
    · rw [if_neg hb]
      exact ⟨fun h => absurd rfl h.1, fun h => absurd h.1 hb⟩
  rw [hsv] at h
  obtain ⟨⟨q', lf⟩, hq, h⟩ := bind_ok_iff.mp h
  obtain ⟨e1, e2, e3⟩ := rebuildHeaders_eq hs fa hq
  obtain ⟨hdr, hhdr, h⟩ := bind_ok_iff.mp h
  obtain ⟨bound, hbound, h⟩ := bind_ok_iff.mp h
  obtain ⟨data, hdata, h⟩ := bind_ok_iff.mp h
  dsimp only at hdata hbound hhdr h
  injection h with h
  injection h with h1 h2
  subst h1
  subst e2
  have hh : hdr = encFields (ntFields q'.kind q'.nt) ++ encDirs (q'.nt.dirs.take q'.nt.numRva) ++ q'.secs.flatMap encSec := by
    unfold Image.headerBytes at hhdr
    split at hhdr
    · simp at hhdr
    · replace hhdr := Except.ok.inj hhdr; exact hhdr.symm
  rw [hrv] at hbound
  rw [hh] at h2 hdata
  exact ⟨hq, e1, e3, bound, data, hbound, hdata, h2.symm⟩

theorem sizeofNtBase_eq (k : Kind) (n : Nat) (h : n ≤ 16) : k.sizeofNtBase + 8 * n = k.sizeofNt - 8 * (16 - n) := by
  have h1 : (Kind.pe32.sizeofNtBase = 120 ∧ Kind.pe32.sizeofNt = 248) ∧ Kind.pe64.sizeofNtBase = 136 ∧ Kind.pe64.sizeofNt = 264 := by decide
  cases k
  · rw [h1.1.1, h1.1.2]; omega
  · rw [h1.2.1, h1.2.2]; omega

theorem flatMap_encSec_length {l : List Sec} (h : ∀ s ∈ l, s.name.length = 8) : (l.flatMap encSec).length = 40 * l.length := by
  induction l with
  | nil => rfl
  | cons s l ih =>
    simp only [List.flatMap_cons, List.length_append, List.length_cons, encSec_length (h s (by simp)),
      ih (fun s hs => h s (by simp [hs]))]
    omega

theorem dosBytes_length {p q : Image} {strip : Bool} (hd : q.dos.length = 60) (hst : q.stub = if strip then [] else p.stub)
    (hl : p.stub.length < 4294967296) (lf : Nat) : (q.dosBytes strip lf).length = p.ntStart strip := by
  unfold Image.dosBytes Image.ntStart
  rw [hst]
  have hc := ceilTo_ge (x := p.stub.length) (a := 4) (by decide)
  cases strip
  · simp only [Bool.false_eq_true, if_false, List.length_append, leBytes_length, hd, zeros_length]
    rw [alignUp64_eq pow2_4 (by omega)]
    omega
  · simp only [if_true, List.length_append, List.length_take, leBytes_length, hd, zeros_length, List.length_nil]
    rw [alignUp64_eq pow2_4 (by omega), ceilTo_zero]
    omega

theorem placeSecs_mem {fa ptr : Nat} {l : List Sec} {t : Sec} (h : t ∈ placeSecs fa ptr l) :
    ∃ s ∈ l, ∃ x, t = { s with rawPtr := x } := by
  induction l generalizing ptr with
  | nil => simp [placeSecs] at h
  | cons s l ih =>
    unfold placeSecs at h
    split at h
    · rcases List.mem_cons.mp h with h | h
      · exact ⟨s, by simp, _, h⟩
      · obtain ⟨a, b, c⟩ := ih h; exact ⟨a, by simp [b], c⟩
    · rcases List.mem_cons.mp h with h | h
      · exact ⟨s, by simp, s.rawPtr, h⟩
      · obtain ⟨a, b, c⟩ := ih h; exact ⟨a, by simp [b], c⟩

theorem rebuilt_numRva (p : Image) (strip chg save : Bool) : (rebuiltImage p strip chg save).nt.numRva = p.nt.numRva := rfl

theorem rebuilt_dirs (p : Image) (strip chg save : Bool) : (rebuiltImage p strip chg save).nt.dirs =
    if save = true ∧ p.HasBound then p.nt.dirs.set 11 (w32 (p.tableEnd strip), p.boundDir.2) else p.nt.dirs := rfl

theorem rebuilt_dirsOk {p : Image} (hs : p.Sized) (strip chg save : Bool) : (rebuiltImage p strip chg save).nt.DirsOk := by
  refine ⟨?_, hs.dirs.count⟩
  rw [rebuilt_dirs]
  split
  · rw [List.length_set]; exact hs.dirs.slots
  · exact hs.dirs.slots

theorem tableEnd_pos (p : Image) (strip : Bool) : 0 < p.tableEnd strip := by
  unfold Image.tableEnd Image.ntStart; split <;> omega

theorem tableEnd_le_dataStart {p : Image} (fa : Pow2 p.nt.fileAlign) (strip save : Bool) :
    p.tableEnd strip + p.boundSize save ≤ p.dataStart strip save := ceilTo_ge fa.pos

/-- The copied bound import directory has the expected length. -/
theorem boundBytes_length {p : Image} (hs : p.Sized) {strip chg save : Bool} (hf : p.tableEnd strip < 4294967296) {rva : Nat}
    {b : Bytes} (h : (rebuiltImage p strip chg save).boundBytes save rva = .ok b) : b.length = p.boundSize save := by
  unfold Image.boundBytes at h
  obtain ⟨w, hw, h⟩ := bind_ok_iff.mp h
  have hpos := tableEnd_pos p strip
  have hdo := rebuilt_dirsOk hs strip chg save
  unfold Image.boundWanted at hw
  by_cases hsv : save = true
  · rw [if_pos hsv] at hw
    unfold Image.hasDir at hw
    by_cases hb : p.HasBound
    · have hd : (rebuiltImage p strip chg save).nt.dirs[dirBoundImport]? = some (w32 (p.tableEnd strip), p.boundDir.2) := by
        rw [rebuilt_dirs, if_pos ⟨hsv, hb⟩]
        exact List.getElem?_set_self (by rw [hs.dirs.slots]; decide)
      obtain ⟨g1, g2, g3⟩ := getDir_stored hdo (id := dirBoundImport) hb.1 hd
      rw [g3] at hw
      replace hw := Except.ok.inj hw
      have : w = true := by
        rw [← hw]; simp only [decide_eq_true_eq]
        unfold w32; omega
      subst this
      simp only [if_true] at h
      obtain ⟨⟨bb, o⟩, _, h⟩ := bind_ok_iff.mp h
      obtain ⟨size, hsz, h⟩ := bind_ok_iff.mp h
      rw [g2] at hsz
      replace hsz := Except.ok.inj hsz
      dsimp only at h hsz
      unfold readN at h
      split at h
      · next hle =>
        replace h := Except.ok.inj h
        rw [← h, slice_length_of_le hle, ← hsz]
        unfold Image.boundSize
        rw [if_pos ⟨hsv, hb⟩]
      · simp at h
    · rcases hasBound_dir hdo (id := dirBoundImport) with he | he
      · rw [he] at hw
        replace hw := Except.ok.inj hw
        unfold Image.boundSize
        rw [if_neg (fun h => hb h.2)]
        have hd : (rebuiltImage p strip chg save).nt.dirs = p.nt.dirs := by
          rw [rebuilt_dirs, if_neg (fun h => hb h.2)]
        rw [hd, rebuilt_numRva] at hw
        cases w
        · simp only [Bool.false_eq_true, if_false, Except.ok.injEq] at h
          rw [← h]; rfl
        · simp only [if_true] at h
          obtain ⟨⟨bb, o⟩, _, h⟩ := bind_ok_iff.mp h
          obtain ⟨size, hsz, h⟩ := bind_ok_iff.mp h
          unfold NtHdr.getDirSize at hsz
          rw [rebuilt_numRva] at hsz
          split at hsz
          · simp at hsz
          · next hn =>
            rw [if_neg (by omega), decide_eq_true_eq] at hw
            exact absurd ⟨by unfold dirBoundImport at hn; omega, hw.2⟩ hb
      · exact absurd he (by decide)
  · rw [if_neg hsv] at hw
    replace hw := Except.ok.inj hw
    subst hw
    simp only [Bool.false_eq_true, if_false, Except.ok.injEq] at h
    unfold Image.boundSize
    rw [if_neg (fun h => hsv h.1), ← h]; rfl

theorem headBytes_length {p : Image} (hs : p.Sized) (hp : p.Shaped) {strip chg save : Bool} (lf : Nat) (b : Bytes) :
    (headBytes (rebuiltImage p strip chg save) strip lf b).length = p.tableEnd strip + b.length := by
  have hdo := rebuilt_dirsOk hs strip chg save
  have hn := hs.dirs.count
  unfold headBytes
  rw [List.length_append, List.length_append, List.length_append, List.length_append, ntFields_length,
    dosBytes_length (p := p) (q := rebuiltImage p strip chg save) (strip := strip) hp.dos rfl hs.stub, encDirs_length, List.length_take, hdo.slots, flatMap_encSec_length]
  · rw [rebuilt_numRva]
    have hsl : (rebuiltImage p strip chg save).secs.length = p.secs.length := placeSecs_length _ _ _
    rw [hsl]
    have hk : (rebuiltImage p strip chg save).kind = p.kind := rfl
    rw [hk]
    unfold Image.tableEnd
    rw [← sizeofNtBase_eq p.kind _ hn, Nat.min_eq_left hn]
    omega
  · intro t ht
    obtain ⟨s, hs, x, rfl⟩ := placeSecs_mem ht
    exact hp.names s hs

end PE
