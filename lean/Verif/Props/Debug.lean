/-
C47, C66: reading debug information.
-/
import Verif.Spec.Debug
import Verif.Lemmas.At
import Verif.Lemmas.ResourceData
import Verif.Lemmas.Map
import Verif.Props.Exception
import Verif.Props.Exports
import Verif.Props.VersionSafe

namespace PE

/-! ### Safety -/

theorem coffName_noUB (d : Bytes) (n lva : Nat) (sym : Bytes) : NoUB (coffName d n lva sym) := by
  unfold coffName
  split
  · exact NoUB.ok _
  · refine NoUB.bind (NoUB.throwIf _ _) (fun _ _ => NoUB.bind (NoUB.throwIf _ _) (fun _ h1 => ?_))
    rw [throwIf_ok_iff] at h1
    refine NoUB.bind (isNullTerminated_noUB (by rw [List.length_drop]; omega)) (fun t ht => NoUB.bind (NoUB.throwIf _ _) (fun _ h2 => ?_))
    rw [throwIf_ok_iff] at h2
    cases t with
    | false => exact absurd rfl h2
    | true => exact readCStr_noUB ht

theorem coffLoop_noUB (d : Bytes) (n lva : Nat) (hd : n * 18 + lva ≤ d.length) (i : Nat) (acc : List CoffSym) : NoUB (coffLoop d n lva i acc) := by
  induction hm : n - i using Nat.strongRecOn generalizing i acc with
  | _ m ih =>
    rw [coffLoop]
    split
    · rename_i hi
      rw [readN_ok (by omega), ok_bind]
      generalize slice d (i * 18 + lva) 18 = sym
      refine NoUB.bind (NoUB.throwIf _ _) (fun _ h1 => ?_)
      rw [throwIf_ok_iff] at h1
      split
      · rw [readN_ok (by omega), ok_bind]
        exact ih _ (by omega) _ _ rfl
      · split
        · exact NoUB.bind (coffName_noUB _ _ _ _) (fun _ _ => ih _ (by omega) _ _ rfl)
        · exact ih _ (by omega) _ _ rfl
    · exact NoUB.ok _

theorem debugCoff_noUB (d : Bytes) : NoUB (debugCoff d) := by
  unfold debugCoff
  refine NoUB.bind (NoUB.throwIf _ _) (fun _ h1 => ?_)
  rw [throwIf_ok_iff] at h1
  rw [readN_ok (by omega), ok_bind]
  refine NoUB.bind (NoUB.throwIf _ _) (fun _ _ => NoUB.bind (NoUB.throwIf _ _) (fun _ h2 => ?_))
  rw [throwIf_ok_iff] at h2
  exact NoUB.bind (coffLoop_noUB _ _ _ (by omega) _ _) (fun _ _ => NoUB.ok _)

theorem pdbName_noUB (d : Bytes) (o : Nat) : NoUB (pdbName d o) := by
  unfold pdbName
  refine NoUB.bind (NoUB.throwIf _ _) (fun _ h1 => ?_)
  rw [throwIf_ok_iff] at h1
  refine NoUB.bind (isNullTerminated_noUB (by rw [List.length_drop]; omega)) (fun t ht => NoUB.bind (NoUB.throwIf _ _) (fun _ h2 => ?_))
  rw [throwIf_ok_iff] at h2
  cases t with
  | false => exact absurd rfl h2
  | true => exact readCStr_noUB ht

theorem pdbName_len {d : Bytes} {o : Nat} {s : Bytes} (h : pdbName d o = .ok s) : o + 1 ≤ d.length := by
  unfold pdbName at h
  obtain ⟨h1, -⟩ := throwIf_bind_ok_iff.mp h
  omega

theorem debugCodeview_noUB (d : Bytes) : NoUB (debugCodeview d) := by
  unfold debugCodeview
  refine NoUB.bind (NoUB.throwIf _ _) (fun _ h1 => ?_)
  rw [throwIf_ok_iff] at h1
  rw [readN_ok (by omega), ok_bind]
  split
  · refine NoUB.bind (pdbName_noUB _ _) (fun _ h => ?_)
    have := pdbName_len h
    rw [readN_ok (by omega)]
    exact NoUB.ok _
  · split
    · refine NoUB.bind (pdbName_noUB _ _) (fun _ h => ?_)
      have := pdbName_len h
      rw [readN_ok (by omega)]
      exact NoUB.ok _
    · split
      · exact NoUB.ok _
      · split
        · exact NoUB.ok _
        · split
          · exact NoUB.ok _
          · exact NoUB.ok _

/-- A misc record that claims to be shorter than its own header. -/
def ShortMisc (d : Bytes) : Prop := 13 ≤ d.length ∧ rd 4 d 4 < 12

theorem debugMisc_only {B : UB → Prop} (d : Bytes) (hB : ShortMisc d → B .oobRead) : Only B (debugMisc d) := by
  unfold debugMisc
  refine Only.bind (Only.of_noUB (NoUB.throwIf _ _)) (fun _ h1 => ?_)
  rw [throwIf_ok_iff] at h1
  rw [readN_ok (by omega), ok_bind, rd_slice (by omega)]
  refine Only.bind (Only.of_noUB (NoUB.throwIf _ _)) (fun _ h2 => ?_)
  rw [throwIf_ok_iff] at h2
  refine Only.bind ?_ (fun _ _ => Only.ok _)
  unfold miscText
  split
  · intro u hu
    cases hu
    exact hB ⟨by omega, by assumption⟩
  · refine Only.of_noUB ?_
    split
    · rw [readN_ok (by omega), ok_bind]
      exact NoUB.bind (fromUcs2_noUB _) (fun _ _ => NoUB.ok _)
    · rw [readN_ok (by omega), ok_bind]
      exact NoUB.ok _

theorem debugAdv_only {B : UB → Prop} (type : Nat) (raw : Option Bytes) (hB : ∀ d, type = 4 → raw = some d → ShortMisc d → B .oobRead) :
    Only B (debugAdv type raw) := by
  unfold debugAdv
  cases raw with
  | none => exact Only.ok _
  | some d =>
    dsimp only
    split
    · exact Only.of_noUB (debugCoff_noUB d)
    · split
      · exact Only.of_noUB (debugCodeview_noUB d)
      · split
        · exact debugMisc_only d (fun h => hB d (by assumption) rfl h)
        · exact Only.ok _

/-- The 28-byte record number `i` of the debug directory at `rva`, as the image shows it. -/
def Image.DebugRecord (p : Image) (rva i : Nat) (dir : Bytes) : Prop := p.readT 28 (rva + 28 * i) .virt true = .ok dir

theorem debugLoop_only {p : Image} (hp : Readable p) {B : UB → Prop} (fin pos : Nat) (hpos : pos + 28 < 4294967296) (dir : Bytes)
    (hdir : p.readT 28 pos .virt true = .ok dir) (acc : List DebugInfo)
    (hB : ∀ i r d, p.DebugRecord pos i r → rd 4 r 12 = 4 → mapFind (rd 4 r 24) p.debugData = some d → ShortMisc d → B .oobRead) :
    Only B (p.debugLoop fin pos dir acc) := by
  induction hm : 4294967296 - pos using Nat.strongRecOn generalizing pos dir acc with
  | _ m ih =>
    have hw : w32 (pos + 28) = pos + 28 := Nat.mod_eq_of_lt hpos
    rw [Image.debugLoop]
    split
    · refine Only.bind (debugAdv_only _ _ (fun d h1 h2 h3 => hB 0 dir d (by simpa [Image.DebugRecord] using hdir) h1 h2 h3)) (fun a _ =>
        Only.bind (Only.of_noUB (NoUB.throwIf _ _)) (fun _ _ => Only.bind (Only.of_noUB (readT_noUB _ _ _ _ _)) (fun nx hn => ?_)))
      rw [hw] at hn
      have hlt := readT_below hp.reads hpos hn
      rw [dif_pos (by rw [hw]; omega), hw]
      refine ih (4294967296 - (pos + 28)) (by omega) (pos + 28) hlt nx hn _ (fun i r d h1 => hB (i + 1) r d ?_) rfl
      unfold Image.DebugRecord at h1 ⊢
      rw [show pos + 28 * (i + 1) = pos + 28 + 28 * i by omega]; exact h1
    · exact Only.ok _

/-- C47: on a readable image the debug information is read in finitely many steps and without leaving a buffer, unless the directory has a record of
    type misc whose raw data claims a length below 12 (`ShortMisc`), for which see `C47_short_misc`. -/
theorem C47_safe_partial {p : Image} (hp : Readable p) (u : UB) (h : p.getDebug = .error (.ub u)) :
    u = .oobRead ∧ ∃ rva i r d, p.nt.getDirRva dirDebug = .ok rva ∧ p.DebugRecord rva i r ∧ rd 4 r 12 = 4 ∧
      mapFind (rd 4 r 24) p.debugData = some d ∧ ShortMisc d := by
  have key : Only (fun u => u = .oobRead ∧ ∃ rva i r d, p.nt.getDirRva dirDebug = .ok rva ∧ p.DebugRecord rva i r ∧ rd 4 r 12 = 4 ∧
      mapFind (rd 4 r 24) p.debugData = some d ∧ ShortMisc d) p.getDebug := by
    unfold Image.getDebug
    refine Only.bind (Only.of_noUB (hasDir_noUB hp.dirs.slots (by decide))) (fun b _ => ?_)
    split
    · refine Only.bind (Only.of_noUB (getDir_noUB hp.dirs _).1) (fun rva hrva => Only.bind (Only.of_noUB (dataLenFrom_noUB _ _ _ _ _)) (fun n _ =>
        Only.bind (Only.of_noUB (NoUB.throwIf _ _)) (fun _ _ => Only.bind (Only.of_noUB (readT_noUB _ _ _ _ _)) (fun r hr =>
        Only.bind (Only.of_noUB (getDir_noUB hp.dirs _).2.1) (fun size _ => Only.bind (Only.of_noUB (NoUB.throwIf _ _)) (fun _ _ => ?_))))))
      exact debugLoop_only hp _ _ (readT_below hp.reads (hp.dirRva_lt hrva) hr) r hr _
        (fun i r' d h1 h2 h3 h4 => ⟨rfl, rva, i, r', d, hrva, h1, h2, h3, h4⟩)
    · exact Only.ok _
  exact key u h

/-! ### Contents -/

theorem cstr_split (b : Bytes) : cstr b = b ∨ ∃ rest, b = cstr b ++ 0 :: rest := by
  induction b with
  | nil => left; rfl
  | cons x b ih =>
    by_cases hx : x = 0
    · subst hx; right; exact ⟨b, rfl⟩
    · have e : cstr (x :: b) = x :: cstr b := by unfold cstr; rw [List.takeWhile_cons, if_pos (by simpa using hx)]
      rw [e]
      rcases ih with h | ⟨r, h⟩
      · left; rw [h]
      · right; exact ⟨r, by rw [List.cons_append, ← h]⟩

theorem readCStr_split {d : Bytes} {o : Nat} {s : Bytes} (h : readCStr d o = .ok s) : (∀ x ∈ s, x ≠ 0) ∧ ∃ rest, d.drop o = s ++ 0 :: rest := by
  unfold readCStr at h
  split at h
  · next hn =>
    cases h
    refine ⟨cstr_ne_zero, ?_⟩
    rcases cstr_split (d.drop o) with h | h
    · rw [hasNul_iff] at hn
      rw [← h] at hn
      exact absurd rfl (cstr_ne_zero _ hn)
    · exact h
  · cases h

theorem pdbName_split {d : Bytes} {o : Nat} {s : Bytes} (h : pdbName d o = .ok s) : (∀ x ∈ s, x ≠ 0) ∧ ∃ rest, d.drop o = s ++ 0 :: rest := by
  unfold pdbName at h
  obtain ⟨-, h⟩ := throwIf_bind_ok_iff.mp h
  obtain ⟨t, -, h⟩ := bind_ok_iff.mp h
  obtain ⟨-, h⟩ := throwIf_bind_ok_iff.mp h
  exact readCStr_split h

theorem coffName_sound {d : Bytes} {n lva i : Nat} (hn : lva + n * 18 < 4294967296) {s : Bytes}
    (h : coffName d n lva (slice d (i * 18 + lva) 18) = .ok s) :
    (∀ x ∈ s, x ≠ 0) ∧ (rd 4 d (lva + 18 * i) ≠ 0 → s = slice d (lva + 18 * i) 8 ∨ ∃ rest, slice d (lva + 18 * i) 8 = s ++ 0 :: rest) ∧
    (rd 4 d (lva + 18 * i) = 0 → ∃ rest, d.drop (lva + 18 * n + rd 4 d (lva + 18 * i + 4)) = s ++ 0 :: rest) := by
  unfold coffName at h
  rw [rd_slice (by omega), rd_slice (by omega), slice_slice (by omega), show i * 18 + lva + 0 = lva + 18 * i by omega,
    show i * 18 + lva + 4 = lva + 18 * i + 4 by omega] at h
  by_cases h0 : rd 4 d (lva + 18 * i) ≠ 0
  · rw [if_pos h0] at h
    cases h
    refine ⟨cstr_ne_zero, fun _ => ?_, fun h => absurd h h0⟩
    rcases cstr_split (slice d (lva + 18 * i) 8) with h | h
    · exact Or.inl h
    · exact Or.inr h
  · rw [if_neg h0] at h
    obtain ⟨h1, h⟩ := throwIf_bind_ok_iff.mp h
    obtain ⟨h2, h⟩ := throwIf_bind_ok_iff.mp h
    obtain ⟨t, -, h⟩ := bind_ok_iff.mp h
    obtain ⟨-, h⟩ := throwIf_bind_ok_iff.mp h
    have hw : w32 (lva + n * 18) = lva + n * 18 := Nat.mod_eq_of_lt hn
    rw [hw] at h1
    have hs : lva + n * 18 + rd 4 d (lva + 18 * i + 4) < 4294967296 := by
      unfold isSumSafe at h1
      have := rd_lt 4 d (lva + 18 * i + 4)
      simp at h1
      omega
    rw [show w32 (lva + n * 18 + rd 4 d (lva + 18 * i + 4)) = lva + n * 18 + rd 4 d (lva + 18 * i + 4) from Nat.mod_eq_of_lt hs] at h
    obtain ⟨h3, h4⟩ := readCStr_split h
    refine ⟨h3, fun hc => absurd hc h0, fun _ => ?_⟩
    rw [show lva + 18 * n = lva + n * 18 by omega]
    exact h4

theorem coffLoop_sound {d : Bytes} {n lva : Nat} (hn : lva + n * 18 < 4294967296) (hd : n * 18 + lva ≤ d.length) (i : Nat) (acc l : List CoffSym)
    (h : coffLoop d n lva i acc = .ok l) :
    ∃ l', l = acc ++ l' ∧ (∀ s ∈ l', i ≤ s.index ∧ s.Describes d n lva) ∧ l'.Pairwise (fun a b => a.index < b.index) := by
  induction hm : n - i using Nat.strongRecOn generalizing i acc with
  | _ m ih =>
    rw [coffLoop] at h
    split at h
    · rename_i hi
      rw [readN_ok (by omega), ok_bind] at h
      obtain ⟨h1, h⟩ := throwIf_bind_ok_iff.mp h
      have e1 : ∀ w o, o + w ≤ 18 → rd w (slice d (i * 18 + lva) 18) o = rd w d (lva + 18 * i + o) := fun w o ho => by
        rw [rd_slice ho, show i * 18 + lva + o = lva + 18 * i + o by omega]
      have h17 := h1
      rw [e1 1 17 (by omega)] at h17
      by_cases hf : rd 1 (slice d (i * 18 + lva) 18) 16 = 103
      · rw [if_pos hf] at h
        obtain ⟨x, -, h⟩ := bind_ok_iff.mp h
        obtain ⟨l', rfl, h2, h3⟩ := ih _ (by omega) _ _ h rfl
        rw [e1 1 16 (by omega)] at hf
        refine ⟨_ :: l', by rw [List.append_assoc]; rfl, ?_, ?_⟩
        · intro s hs
          rcases List.mem_cons.mp hs with rfl | hs
          · refine ⟨Nat.le_refl _, hi, by dsimp only; omega, by dsimp only; omega, by dsimp only; omega, e1 1 16 (by omega), e1 2 14 (by omega), ?_, ?_, ?_, ?_, ?_⟩
            · dsimp only; rw [e1 1 16 (by omega)]; simp [hf]
            all_goals (intro hc; cases hc)
          · exact ⟨by have := (h2 s hs).1; omega, (h2 s hs).2⟩
        · refine List.pairwise_cons.mpr ⟨fun s hs => ?_, h3⟩
          have := (h2 s hs).1
          dsimp only; omega
      · rw [if_neg hf] at h
        by_cases hc : coffListed (slice d (i * 18 + lva) 18) = true
        · rw [if_pos hc] at h
          obtain ⟨x, hx, h⟩ := bind_ok_iff.mp h
          obtain ⟨l', rfl, h2, h3⟩ := ih _ (by omega) _ _ h rfl
          obtain ⟨n1, n2, n3⟩ := coffName_sound hn hx
          rw [e1 1 16 (by omega)] at hf
          refine ⟨_ :: l', by rw [List.append_assoc]; rfl, ?_, ?_⟩
          · intro s hs
            rcases List.mem_cons.mp hs with rfl | hs
            · refine ⟨Nat.le_refl _, hi, by dsimp only; omega, by dsimp only; omega, by dsimp only; omega, e1 1 16 (by omega), e1 2 14 (by omega), ?_, ?_, ?_, ?_, ?_⟩
              · dsimp only; rw [e1 1 16 (by omega)]; simp [hf]
              · intro _; exact ⟨e1 2 12 (by omega), e1 4 8 (by omega)⟩
              · intro _; exact n1
              · intro _; exact n2
              · intro _; exact n3
            · exact ⟨by have := (h2 s hs).1; omega, (h2 s hs).2⟩
          · refine List.pairwise_cons.mpr ⟨fun s hs => ?_, h3⟩
            have := (h2 s hs).1
            dsimp only; omega
        · rw [if_neg hc] at h
          obtain ⟨l', rfl, h2, h3⟩ := ih _ (by omega) _ _ h rfl
          exact ⟨l', rfl, fun s hs => ⟨by have := (h2 s hs).1; omega, (h2 s hs).2⟩, h3⟩
    · cases h
      exact ⟨[], by simp, by simp, List.Pairwise.nil⟩

theorem debugCoff_sound {d : Bytes} {a : AdvInfo} (h : debugCoff d = .ok a) : a.Describes 1 d := by
  unfold debugCoff at h
  obtain ⟨h1, h⟩ := throwIf_bind_ok_iff.mp h
  rw [readN_ok (by omega), ok_bind] at h
  obtain ⟨h2, h⟩ := throwIf_bind_ok_iff.mp h
  obtain ⟨h3, h⟩ := throwIf_bind_ok_iff.mp h
  obtain ⟨l, hl, h⟩ := bind_ok_iff.mp h
  cases h
  rw [rd_slice (by omega), rd_slice (by omega), Nat.zero_add, Nat.zero_add] at h2 h3 hl
  have hs : rd 4 d 4 + rd 4 d 0 * 18 < 4294967296 := by
    have h4 : isSumSafe (rd 4 d 0 * 18) (rd 4 d 4) ≠ false := fun hc => h2 (Or.inr hc)
    unfold isSumSafe at h4
    have := rd_lt 4 d 4
    simp at h4
    omega
  obtain ⟨l', e, h5, h6⟩ := coffLoop_sound hs (by omega) 0 [] l hl
  rw [List.nil_append] at e
  subst e
  exact ⟨rfl, rfl, by omega, fun s hs => (h5 s hs).2, h6⟩

theorem debugCodeview_sound {d : Bytes} {a : AdvInfo} (h : debugCodeview d = .ok a) : a.Describes 2 d := by
  unfold debugCodeview at h
  obtain ⟨h1, h⟩ := throwIf_bind_ok_iff.mp h
  rw [readN_ok (by omega), ok_bind] at h
  by_cases hr : slice d 0 4 = sigRSDS
  · rw [if_pos hr] at h
    obtain ⟨s, hs, h⟩ := bind_ok_iff.mp h
    have := pdbName_len hs
    obtain ⟨n1, n2⟩ := pdbName_split hs
    rw [readN_ok (by omega), ok_bind] at h
    cases h
    rw [slice_slice (by omega), rd_slice (by omega), Nat.zero_add, Nat.zero_add]
    exact ⟨rfl, hr, rfl, rfl, n1, n2⟩
  · rw [if_neg hr] at h
    by_cases hb : slice d 0 4 = sigNB10
    · rw [if_pos hb] at h
      obtain ⟨s, hs, h⟩ := bind_ok_iff.mp h
      have := pdbName_len hs
      obtain ⟨n1, n2⟩ := pdbName_split hs
      rw [readN_ok (by omega), ok_bind] at h
      cases h
      rw [rd_slice (by omega), rd_slice (by omega), Nat.zero_add, Nat.zero_add]
      exact ⟨rfl, hb, rfl, rfl, n1, n2⟩
    · rw [if_neg hb] at h
      have hn : AdvInfo.Describes 2 d AdvInfo.none := ⟨by omega, by omega, fun _ => ⟨hr, hb⟩⟩
      have : a = .none := by
        split at h
        · cases h; rfl
        · split at h
          · cases h; rfl
          · split at h
            · cases h; rfl
            · cases h; rfl
      rw [this]; exact hn

theorem debugMisc_sound {d : Bytes} {a : AdvInfo} (h : debugMisc d = .ok a) : a.Describes 4 d := by
  unfold debugMisc at h
  obtain ⟨h1, h⟩ := throwIf_bind_ok_iff.mp h
  rw [readN_ok (by omega), ok_bind] at h
  obtain ⟨h2, h⟩ := throwIf_bind_ok_iff.mp h
  obtain ⟨t, ht, h⟩ := bind_ok_iff.mp h
  cases h
  rw [rd_slice (by omega), Nat.zero_add] at h2 ht
  rw [rd_slice (by omega), Nat.zero_add]
  unfold miscText at ht
  split at ht
  · cases ht
  · rename_i h12
    split at ht
    · rename_i hu
      rw [readN_ok (by omega), ok_bind] at ht
      obtain ⟨w, hw, ht⟩ := bind_ok_iff.mp ht
      obtain ⟨rfl, hus⟩ := fromUcs2_eq.mp hw
      cases ht
      have hsl : (slice d 12 (2 * ((rd 4 d 4 - 12) / 2))).length = 2 * ((rd 4 d 4 - 12) / 2) := slice_length_of_le (by omega)
      exact ⟨rfl, rfl, by omega, by omega, fun h0 => absurd h0 hu, fun _ => ⟨_, _, rfl, hus, stripped_strip _, (encUnits_dec _ _ hsl).1.symm⟩⟩
    · rename_i hu
      rw [readN_ok (by omega), ok_bind] at ht
      cases ht
      exact ⟨rfl, rfl, by omega, by omega, fun _ => ⟨_, rfl, stripped_strip _⟩, fun h0 => absurd h0 hu⟩

theorem debugAdv_sound {type : Nat} {d : Bytes} {a : AdvInfo} (h : debugAdv type (some d) = .ok a) : a.Describes type d := by
  unfold debugAdv at h
  dsimp only at h
  split at h
  · rename_i ht; subst ht; exact debugCoff_sound h
  · split at h
    · rename_i ht; subst ht; exact debugCodeview_sound h
    · split at h
      · rename_i ht; subst ht; exact debugMisc_sound h
      · cases h; exact ⟨by assumption, by assumption, fun h => absurd h (by assumption)⟩

/-- The entry is what record `i` of the directory and its raw data say. -/
def DebugInfo.Describes (e : DebugInfo) (p : Image) (rva i : Nat) : Prop :=
  p.DebugRecord rva i e.dir ∧ rd 4 e.dir 24 ≠ 0 ∧
  match mapFind (rd 4 e.dir 24) p.debugData with
  | none => e.adv = .none
  | some d => e.adv.Describes (rd 4 e.dir 12) d

theorem imageDebugLoop_sound {p : Image} (hp : Readable p) (fin pos : Nat) (hpos : pos + 28 < 4294967296) (dir : Bytes)
    (hdir : p.readT 28 pos .virt true = .ok dir) (acc l : List DebugInfo) (h : p.debugLoop fin pos dir acc = .ok l) :
    ∃ l', l = acc ++ l' ∧ (∀ (i : Nat) (e : DebugInfo), l'[i]? = some e → e.Describes p pos i ∧ pos + 28 * i < fin) ∧
      ∃ r, p.DebugRecord pos l'.length r ∧ (rd 4 r 24 = 0 ∨ fin ≤ pos + 28 * l'.length) := by
  induction hm : 4294967296 - pos using Nat.strongRecOn generalizing pos dir acc with
  | _ m ih =>
    have hw : w32 (pos + 28) = pos + 28 := Nat.mod_eq_of_lt hpos
    rw [Image.debugLoop] at h
    by_cases hc : rd 4 dir 24 ≠ 0 ∧ pos < fin
    · rw [if_pos hc] at h
      obtain ⟨a, ha, h⟩ := bind_ok_iff.mp h
      obtain ⟨-, h⟩ := throwIf_bind_ok_iff.mp h
      obtain ⟨nx, hn, h⟩ := bind_ok_iff.mp h
      rw [hw] at hn
      have hlt := readT_below hp.reads hpos hn
      rw [dif_pos (by rw [hw]; omega), hw] at h
      obtain ⟨l', rfl, h1, r, h2, h3⟩ := ih (4294967296 - (pos + 28)) (by omega) (pos + 28) hlt nx hn _ h rfl
      refine ⟨_ :: l', by rw [List.append_assoc]; rfl, ?_, r, ?_, ?_⟩
      · intro i e he
        cases i with
        | zero =>
          simp only [List.getElem?_cons_zero, Option.some.injEq] at he
          subst he
          refine ⟨⟨by simpa [Image.DebugRecord] using hdir, hc.1, ?_⟩, by omega⟩
          dsimp only
          cases hf : mapFind (rd 4 dir 24) p.debugData with
          | none => rw [hf] at ha; cases ha; rfl
          | some d => rw [hf] at ha; exact debugAdv_sound ha
        | succ i =>
          simp only [List.getElem?_cons_succ] at he
          obtain ⟨⟨j1, j2⟩, j3⟩ := h1 i e he
          refine ⟨⟨?_, j2⟩, by omega⟩
          unfold Image.DebugRecord at j1 ⊢
          rw [show pos + 28 * (i + 1) = pos + 28 + 28 * i by omega]; exact j1
      · unfold Image.DebugRecord at h2 ⊢
        rw [List.length_cons, show pos + 28 * (l'.length + 1) = pos + 28 + 28 * l'.length by omega]; exact h2
      · rw [List.length_cons]; omega
    · rw [if_neg hc] at h
      cases h
      exact ⟨[], by simp, by simp, dir, by simpa [Image.DebugRecord] using hdir, by simp; omega⟩

theorem hasDir_rva {p : Image} {id rva : Nat} (h : p.hasDir id = .ok true) (h' : p.nt.getDirRva id = .ok rva) : rva ≠ 0 := by
  unfold Image.hasDir NtHdr.directoryExists at h
  unfold NtHdr.getDirRva at h'
  split at h'
  · cases h'
  · split at h
    · obtain ⟨d, hd, h⟩ := bind_ok_iff.mp h
      obtain ⟨d', hd', h'⟩ := bind_ok_iff.mp h'
      rw [hd] at hd'
      cases hd'
      cases h'
      simpa using h
    · cases h

/-- C66, contents: without a debug directory the list is empty. Otherwise entry `i` of the list is record `i` of the directory, together with what
    the raw data found for it says (see `AdvInfo.Describes`), and the list ends where the directory ends or at the first record without raw data. -/
theorem C66_entries {p : Image} (hp : Readable p) {l : List DebugInfo} (h : p.getDebug = .ok l) :
    (p.hasDir dirDebug = .ok false ∧ l = []) ∨
    ∃ rva size, p.nt.getDirRva dirDebug = .ok rva ∧ p.nt.getDirSize dirDebug = .ok size ∧
      (∀ (i : Nat) (e : DebugInfo), l[i]? = some e → e.Describes p rva i ∧ 28 * i < size) ∧
      ∃ r, p.DebugRecord rva l.length r ∧ (rd 4 r 24 = 0 ∨ size ≤ 28 * l.length) := by
  unfold Image.getDebug at h
  obtain ⟨b, hb, h⟩ := bind_ok_iff.mp h
  cases b with
  | false => left; cases h; exact ⟨hb, rfl⟩
  | true =>
    right
    rw [if_pos rfl] at h
    obtain ⟨rva, hrva, h⟩ := bind_ok_iff.mp h
    obtain ⟨n, hn, h⟩ := bind_ok_iff.mp h
    obtain ⟨h1, h⟩ := throwIf_bind_ok_iff.mp h
    obtain ⟨r, hr, h⟩ := bind_ok_iff.mp h
    obtain ⟨size, hsize, h⟩ := bind_ok_iff.mp h
    obtain ⟨h2, h⟩ := throwIf_bind_ok_iff.mp h
    have hlt := hp.dirRva_lt hrva
    have hw : w32 (rva + size) = rva + size := by
      have := hasDir_rva hb hrva
      unfold isSumSafe at h2
      simp at h2
      exact Nat.mod_eq_of_lt (by omega)
    rw [hw] at h
    obtain ⟨l', e, h3, r', h4, h5⟩ := imageDebugLoop_sound hp _ rva (readT_below hp.reads hlt hr) r hr [] l h
    rw [List.nil_append] at e
    subst e
    exact ⟨rva, size, hrva, hsize, fun i e he => ⟨(h3 i e he).1, by have := (h3 i e he).2; omega⟩, r', h4, by omega⟩

/-! ### What linkers write is understood -/

theorem isNullTerminated_at {b s : Bytes} {o : Nat} (h : At b o (s ++ [0])) : isNullTerminated (b.drop o) (b.length - o) = .ok true := by
  unfold isNullTerminated
  rw [if_pos]
  rw [hasNul_iff, ← List.length_drop, List.take_length, h.split]
  simp

theorem pdbName_at {d s : Bytes} {o : Nat} (h : At d o (s ++ [0])) (hs : ∀ x ∈ s, x ≠ 0) : pdbName d o = .ok s := by
  have := h.1
  rw [List.length_append, List.length_singleton] at this
  unfold pdbName
  rw [throwIf_neg (by omega), ok_bind, isNullTerminated_at h, ok_bind, throwIf_neg (by simp), ok_bind, h.readCStr hs]

theorem At.slice_eq {b x : Bytes} {o n : Nat} (h : At b o x) (hn : n = x.length) : slice b o n = x := by rw [hn]; exact h.2

theorem goodPdb70 (guid name rest : Bytes) (age : Nat) (hg : guid.length = 16) (ha : age < 2 ^ 32) (hn : ∀ x ∈ name, x ≠ 0) :
    debugCodeview (sigRSDS ++ (guid ++ (leBytes 4 age ++ ((name ++ [0]) ++ rest)))) = .ok (.pdb70 guid age name) := by
  generalize hd : sigRSDS ++ (guid ++ (leBytes 4 age ++ ((name ++ [0]) ++ rest))) = d
  have h0 : At d 0 (sigRSDS ++ (guid ++ (leBytes 4 age ++ ((name ++ [0]) ++ rest)))) := hd ▸ at_self d
  have h1 := h0.left
  have h2 : At d 4 (guid ++ (leBytes 4 age ++ ((name ++ [0]) ++ rest))) := h0.right (by rfl)
  have h3 : At d 20 (leBytes 4 age ++ ((name ++ [0]) ++ rest)) := h2.right (by omega)
  have h4 : At d 24 ((name ++ [0]) ++ rest) := h3.right (by rw [leBytes_length])
  have h5 := h4.left
  have hl := h5.1
  rw [List.length_append, List.length_singleton] at hl
  unfold debugCodeview
  rw [throwIf_neg (by omega), ok_bind, readN_ok (by omega), ok_bind, if_pos (h1.slice_eq (by rfl)), pdbName_at h5 hn, ok_bind,
    readN_ok (by omega), ok_bind, slice_slice (by omega), rd_slice (by omega), Nat.zero_add, Nat.zero_add, h3.left.rd,
    h2.left.slice_eq hg.symm, Nat.mod_eq_of_lt (by omega)]

theorem goodPdb20 (off sig age : Nat) (name rest : Bytes) (hs : sig < 2 ^ 32) (ha : age < 2 ^ 32) (hn : ∀ x ∈ name, x ≠ 0) :
    debugCodeview (sigNB10 ++ (leBytes 4 off ++ (leBytes 4 sig ++ (leBytes 4 age ++ ((name ++ [0]) ++ rest))))) = .ok (.pdb20 sig age name) := by
  generalize hd : sigNB10 ++ (leBytes 4 off ++ (leBytes 4 sig ++ (leBytes 4 age ++ ((name ++ [0]) ++ rest)))) = d
  have h0 : At d 0 (sigNB10 ++ (leBytes 4 off ++ (leBytes 4 sig ++ (leBytes 4 age ++ ((name ++ [0]) ++ rest))))) := hd ▸ at_self d
  have h1 := h0.left
  have h2 : At d 4 (leBytes 4 off ++ (leBytes 4 sig ++ (leBytes 4 age ++ ((name ++ [0]) ++ rest)))) := h0.right (by rfl)
  have h3 : At d 8 (leBytes 4 sig ++ (leBytes 4 age ++ ((name ++ [0]) ++ rest))) := h2.right (by rw [leBytes_length])
  have h4 : At d 12 (leBytes 4 age ++ ((name ++ [0]) ++ rest)) := h3.right (by rw [leBytes_length])
  have h5 : At d 16 ((name ++ [0]) ++ rest) := h4.right (by rw [leBytes_length])
  have h6 := h5.left
  have hl := h6.1
  rw [List.length_append, List.length_singleton] at hl
  unfold debugCodeview
  rw [throwIf_neg (by omega), ok_bind, readN_ok (by omega), ok_bind, h1.slice_eq (by rfl), if_neg (by decide), if_pos rfl, pdbName_at h6 hn,
    ok_bind, readN_ok (by omega), ok_bind, rd_slice (by omega), rd_slice (by omega), Nat.zero_add, Nat.zero_add, h3.left.rd,
    h4.left.rd, Nat.mod_eq_of_lt (by omega), Nat.mod_eq_of_lt (by omega)]

theorem goodMisc (t n u : Nat) (res x rest : Bytes) (text : Message) (ht : t < 2 ^ 32) (hr : res.length = 3) (hx : x.length = n) (hn : 0 < n)
    (hl : 12 + n < 2 ^ 32) (hu : u < 256) (ha : u = 0 → text = .ansi (stripNullbytes x))
    (hw : u ≠ 0 → ∃ w, n % 2 = 0 ∧ fromUcs2 (decUnits x) = .ok w ∧ text = .wide (stripWide w)) :
    debugMisc (leBytes 4 t ++ (leBytes 4 (12 + n) ++ (leBytes 1 u ++ (res ++ (x ++ rest))))) = .ok (.misc t text) := by
  generalize hd : leBytes 4 t ++ (leBytes 4 (12 + n) ++ (leBytes 1 u ++ (res ++ (x ++ rest)))) = d
  have h0 : At d 0 (leBytes 4 t ++ (leBytes 4 (12 + n) ++ (leBytes 1 u ++ (res ++ (x ++ rest))))) := hd ▸ at_self d
  have h2 : At d 4 (leBytes 4 (12 + n) ++ (leBytes 1 u ++ (res ++ (x ++ rest)))) := h0.right (by rw [leBytes_length])
  have h3 : At d 8 (leBytes 1 u ++ (res ++ (x ++ rest))) := h2.right (by rw [leBytes_length])
  have h4 : At d 9 (res ++ (x ++ rest)) := h3.right (by rw [leBytes_length])
  have h5 : At d 12 (x ++ rest) := h4.right (by omega)
  have h6 := h5.left
  have hlen := h6.1
  unfold debugMisc
  rw [throwIf_neg (by omega), ok_bind, readN_ok (by omega), ok_bind, rd_slice (by omega), rd_slice (by omega), Nat.zero_add, Nat.zero_add,
    h2.left.rd, h0.left.rd, Nat.mod_eq_of_lt (by omega), Nat.mod_eq_of_lt (by omega), throwIf_neg (by omega), ok_bind]
  unfold miscText
  rw [if_neg (by omega), h3.left.rd, Nat.mod_eq_of_lt (by omega), show 12 + n - 12 = n by omega]
  by_cases h0 : u = 0
  · rw [if_neg (by omega), readN_ok (by omega), ok_bind, h6.slice_eq hx.symm, ha h0]
    rfl
  · obtain ⟨w, he, hw1, hw2⟩ := hw h0
    rw [if_pos h0, show 2 * (n / 2) = n by omega, readN_ok (by omega), ok_bind, h6.slice_eq hx.symm, hw1, ok_bind, hw2]
    rfl

theorem stripped_of {α : Type} [Zero α] {s : List α} (n : Nat) (h : ∀ a, s.getLast? = some a → a ≠ 0) : Stripped (s ++ List.replicate n 0) s :=
  ⟨⟨n, rfl⟩, h⟩

theorem and48 (x : Nat) : (x &&& 48 = 32) ↔ (x / 16) % 4 = 2 := by
  have h1 : x &&& 48 = (x % 64) &&& 48 := by
    have h := Nat.and_mod_two_pow (a := x) (b := 48) (n := 6)
    rw [Nat.mod_eq_of_lt (Nat.lt_of_le_of_lt Nat.and_le_right (by decide))] at h
    exact h
  have h2 : (x / 16) % 4 = (x % 64) / 16 := by omega
  rw [h1, h2]
  have h3 : ∀ y < 64, (y &&& 48 = 32) ↔ y / 16 = 2 := by decide
  exact h3 _ (Nat.mod_lt _ (by decide))

theorem CoffNm.bytes_length {st : Bytes} {r : CoffRec} (h : r.Ok st) : r.name.bytes.length = 8 := by
  cases hn : r.name with
  | short s => have := (h.short s hn).1; simp only [CoffNm.bytes, List.length_append, List.length_replicate]; omega
  | long o s => simp only [CoffNm.bytes, List.length_append, leBytes_length]

theorem flatten_length18 : ∀ (l : List Bytes), (∀ x ∈ l, x.length = 18) → l.flatten.length = 18 * l.length
  | [], _ => rfl
  | x :: l, h => by
    rw [List.flatten_cons, List.length_append, h x List.mem_cons_self, flatten_length18 l (fun y hy => h y (List.mem_cons_of_mem _ hy)),
      List.length_cons]
    omega

theorem CoffRec.bytes_length {st : Bytes} {r : CoffRec} (h : r.Ok st) : r.bytes.length = 18 * r.count := by
  unfold CoffRec.bytes CoffRec.count
  simp only [List.length_append, leBytes_length, CoffNm.bytes_length h, flatten_length18 _ h.auxLen]
  omega

theorem fromLE_ne_zero {x : UInt8} (b : Bytes) (h : x ≠ 0) : fromLE (x :: b) ≠ 0 := by
  have h1 : x.toNat ≠ 0 := fun hc => h (UInt8.toNat_inj.mp hc)
  unfold fromLE
  omega

theorem cstr_self {s : Bytes} (h : ∀ x ∈ s, x ≠ 0) : cstr s = s := by
  rcases cstr_split s with e | ⟨r, e⟩
  · exact e
  · exact absurd rfl (h 0 (by rw [e]; simp))

theorem cstr_pad {s : Bytes} (n : Nat) (h : ∀ x ∈ s, x ≠ 0) : cstr (s ++ List.replicate n 0) = s := by
  cases n with
  | zero => rw [List.replicate_zero, List.append_nil, cstr_self h]
  | succ n => rw [List.replicate_succ, cstr_append_zero h]

theorem coffName_at {d st : Bytes} {n lva : Nat} {r : CoffRec} {sym rest : Bytes} (h : r.Ok st) (hsym : sym = r.name.bytes ++ rest)
    (hst : At d (lva + n * 18) st) (hs : lva + n * 18 + st.length < 2 ^ 32) : coffName d n lva sym = .ok r.name.text := by
  unfold coffName
  have hl := CoffNm.bytes_length h
  have e8 : slice sym 0 8 = r.name.bytes := by rw [hsym, slice_append_here hl.symm]
  cases hn : r.name with
  | short s =>
    obtain ⟨h1, h2, h3⟩ := h.short s hn
    rw [hn] at e8
    have h4 : rd 4 sym 0 ≠ 0 := by
      have e4 : slice sym 0 4 = slice (slice sym 0 8) 0 4 := by rw [slice_slice (by omega)]
      unfold rd
      rw [e4, e8]
      cases s with
      | nil => exact absurd rfl h3
      | cons x s => exact fromLE_ne_zero _ (h2 x List.mem_cons_self)
    rw [if_pos h4, e8]
    exact congrArg Except.ok (cstr_pad _ h2)
  | long off s =>
    obtain ⟨h1, h2, h3⟩ := h.long off s hn
    rw [hn] at hsym
    have hat : At sym 0 ((leBytes 4 0 ++ leBytes 4 off) ++ rest) := by rw [hsym]; exact at_self _
    have hat1 : At sym 0 (leBytes 4 0) := hat.left.left
    have hat2 : At sym 4 (leBytes 4 off) := hat.left.right (by rw [leBytes_length])
    have hoff : off < 2 ^ 32 := by omega
    rw [if_neg (by rw [hat1.rd]; decide), hat2.rd, show off % 256 ^ 4 = off from Nat.mod_eq_of_lt (by omega),
      show w32 (lva + n * 18) = lva + n * 18 from Nat.mod_eq_of_lt (by omega),
      show w32 (lva + n * 18 + off) = lva + n * 18 + off from Nat.mod_eq_of_lt (by omega)]
    have hss : isSumSafe (lva + n * 18) off = true := (isSumSafe_lt (by omega) hoff).mpr (by omega)
    have hstr : At d (lva + n * 18 + off) (s ++ [0]) := by
      refine hst.trans ⟨by rw [List.length_append, List.length_singleton]; omega, ?_⟩
      rw [List.length_append, List.length_singleton]; exact h3
    have hle := hstr.1
    rw [throwIf_neg (by rw [hss]; decide), ok_bind]
    dsimp only
    rw [throwIf_neg (by omega), ok_bind, isNullTerminated_at hstr, ok_bind,
      throwIf_neg (by simp), ok_bind, hstr.readCStr h1]
    rfl

theorem coffListed_iff {r : CoffRec} {sym : Bytes} (h16 : rd 1 sym 16 = r.cls) (h17 : rd 1 sym 17 = r.aux.length)
    (h12 : rd 2 sym 12 = r.sec) (h14 : rd 2 sym 14 = r.type) : coffListed sym = true ↔ r.IsCode := by
  unfold coffListed CoffRec.IsCode
  rw [h16, h17, h12, h14, decide_eq_true_iff, and48]
  constructor
  · rintro (⟨h1, h2, h3⟩ | h1)
    · exact Or.inl ⟨h1, List.eq_nil_of_length_eq_zero h2, h3⟩
    · exact Or.inr h1
  · rintro (⟨h1, h2, h3⟩ | h1)
    · exact Or.inl ⟨h1, by rw [h2]; rfl, h3⟩
    · exact Or.inr h1

/-- The name that is given to the file symbol with the number `i`: the bytes from `18 (i + 1)` of the raw data, wherever the symbols are. -/
def fileNameRead (d : Bytes) (lva i : Nat) : Bytes := stripNullbytes (slice d ((i + 1) * 18) (rd 1 d (lva + 18 * i + 17) * 18))

theorem coffLoop_want {d st : Bytes} {n lva : Nat} (hst : At d (lva + n * 18) st) (hs : lva + n * 18 + st.length < 2 ^ 32)
    (hle : lva + n * 18 ≤ d.length) : ∀ (l : List CoffRec) (i : Nat) (acc : List CoffSym), (∀ r ∈ l, r.Ok st) → i + coffCount l = n →
    At d (lva + 18 * i) (l.flatMap CoffRec.bytes) → coffLoop d n lva i acc = .ok (acc ++ coffWant (fileNameRead d lva) i l)
  | [], i, acc, _, hi, _ => by
    rw [coffLoop, if_neg (by simp only [coffCount, List.map_nil, List.sum_nil] at hi; omega)]
    simp [coffWant]
  | r :: l, i, acc, hok, hi, hat => by
    have hr := hok r List.mem_cons_self
    rw [List.flatMap_cons] at hat
    have hcount : coffCount (r :: l) = r.count + coffCount l := by simp [coffCount]
    have hrl := CoffRec.bytes_length hr
    have hc : r.count = r.aux.length + 1 := rfl
    have hnext : At d (lva + 18 * (i + r.count)) (l.flatMap CoffRec.bytes) := hat.right (by omega)
    have haux := hr.aux
    obtain ⟨rest, hrest⟩ : ∃ rest, r.bytes = r.name.bytes ++ rest := ⟨_, rfl⟩
    -- the fields of the record
    have hnm := CoffNm.bytes_length hr
    have a0 : At d (lva + 18 * i) r.bytes := hat.left
    have a0' := a0
    unfold CoffRec.bytes at a0
    have a8 := a0.right (n := lva + 18 * i + 8) (by omega)
    have a12 := a8.right (n := lva + 18 * i + 12) (by rw [leBytes_length])
    have a14 := a12.right (n := lva + 18 * i + 14) (by rw [leBytes_length])
    have a16 := a14.right (n := lva + 18 * i + 16) (by rw [leBytes_length])
    have a17 := a16.right (n := lva + 18 * i + 17) (by rw [leBytes_length])
    have hb : lva + 18 * i + 18 * r.count ≤ d.length := by rw [← hrl]; exact a0'.1
    have e1 : ∀ w o, o + w ≤ 18 → rd w (slice d (i * 18 + lva) 18) o = rd w d (lva + 18 * i + o) := fun w o ho => by
      rw [rd_slice ho, show i * 18 + lva + o = lva + 18 * i + o by omega]
    have f8 : rd 4 (slice d (i * 18 + lva) 18) 8 = r.value := by
      rw [e1 4 8 (by omega), a8.left.rd]; exact Nat.mod_eq_of_lt (by have := hr.value; omega)
    have f12 : rd 2 (slice d (i * 18 + lva) 18) 12 = r.sec := by
      rw [e1 2 12 (by omega), a12.left.rd]; exact Nat.mod_eq_of_lt (by have := hr.sec; omega)
    have f14 : rd 2 (slice d (i * 18 + lva) 18) 14 = r.type := by
      rw [e1 2 14 (by omega), a14.left.rd]; exact Nat.mod_eq_of_lt (by have := hr.type; omega)
    have f16 : rd 1 (slice d (i * 18 + lva) 18) 16 = r.cls := by
      rw [e1 1 16 (by omega), a16.left.rd]; exact Nat.mod_eq_of_lt (by have := hr.cls; omega)
    have f17' : rd 1 d (lva + 18 * i + 17) = r.aux.length := by
      rw [a17.left.rd]; exact Nat.mod_eq_of_lt (by omega)
    have f17 : rd 1 (slice d (i * 18 + lva) 18) 17 = r.aux.length := by rw [e1 1 17 (by omega), f17']
    have hsym : ∃ x, slice d (i * 18 + lva) 18 = r.name.bytes ++ x := by
      have : slice d (lva + 18 * i) 18 = slice d (lva + 18 * i) (8 + 10) := rfl
      rw [show i * 18 + lva = lva + 18 * i by omega, this, slice_add, a0.left.slice_eq hnm.symm]
      exact ⟨_, rfl⟩
    obtain ⟨x, hsym⟩ := hsym
    have hname : coffName d n lva (slice d (i * 18 + lva) 18) = .ok r.name.text := coffName_at hr hsym hst hs
    have hlist := coffListed_iff f16 f17 f12 f14
    rw [coffLoop, if_pos (by omega), readN_ok (by omega), ok_bind, f8, f12, f14, f16, f17]
    generalize slice d (i * 18 + lva) 18 = sym at *
    have hsafe : isSumSafe i r.aux.length = true := (isSumSafe_lt (by omega) (by omega)).mpr (by omega)
    dsimp only
    rw [throwIf_neg (by rw [hsafe]; simp; omega), ok_bind]
    have ihl : ∀ acc', coffLoop d n lva (i + r.count) acc' = .ok (acc' ++ coffWant (fileNameRead d lva) (i + r.count) l) := fun acc' =>
      coffLoop_want hst hs hle l (i + r.count) acc' (fun q hq => hok q (List.mem_cons_of_mem _ hq)) (by omega) hnext
    unfold coffWant
    by_cases hf : r.IsFile
    · rw [if_pos hf, if_pos (show r.cls = 103 from hf), readN_ok (by omega), ok_bind, show i + r.aux.length + 1 = i + r.count by omega, ihl, List.append_assoc]
      unfold fileNameRead
      rw [f17']
    · rw [if_neg hf, if_neg (show ¬ r.cls = 103 from hf)]
      by_cases hcode : r.IsCode
      · rw [if_pos (hlist.mpr hcode), if_pos hcode, hname, ok_bind, show i + r.aux.length + 1 = i + r.count by omega, ihl, List.append_assoc]
      · have hz : r.aux = [] := by
          rcases hr.auxOnly with h | h | h
          · exact absurd h hf
          · exact absurd h hcode
          · exact h
        have hc1 : r.count = 1 := by rw [hc, hz]; rfl
        rw [if_neg (fun h => hcode (hlist.mp h)), if_neg hcode, List.nil_append]
        have := ihl acc
        rw [hc1] at this ⊢
        exact this

theorem flatMap_bytes_length {st : Bytes} : ∀ (l : List CoffRec), (∀ r ∈ l, r.Ok st) → (l.flatMap CoffRec.bytes).length = 18 * coffCount l
  | [], _ => rfl
  | r :: l, h => by
    rw [List.flatMap_cons, List.length_append, CoffRec.bytes_length (h r List.mem_cons_self),
      flatMap_bytes_length l (fun q hq => h q (List.mem_cons_of_mem _ hq))]
    have hcount : coffCount (r :: l) = r.count + coffCount l := by simp [coffCount]
    omega

/-- C66, COFF symbols: from debug data as a linker writes it, all file name symbols, all external functions and all static symbols of section 1 are
    reported, in order, with number, class, type and, for code, section, address and name. Partial: names of files are not what the data says
    (`C66_file_name_wrong`), and symbols that are not reported must not have auxiliary records (`C66_aux_as_symbol`). -/
theorem C66_coff_partial (rest gap : Bytes) (l : List CoffRec) (st : Bytes) (hr : rest.length = 24) (hl : ∀ r ∈ l, r.Ok st)
    (hs : 32 + gap.length + 18 * coffCount l + st.length < 2 ^ 32) :
    ∃ fileName, debugCoff (coffData rest gap l st) =
      .ok (.coff (leBytes 4 (coffCount l) ++ (leBytes 4 (32 + gap.length) ++ rest)) (coffWant fileName 0 l)) := by
  generalize hd : coffData rest gap l st = d
  unfold coffData at hd
  have hfl := flatMap_bytes_length l hl
  have h0 : At d 0 ((leBytes 4 (coffCount l) ++ (leBytes 4 (32 + gap.length) ++ rest)) ++ (gap ++ (l.flatMap CoffRec.bytes ++ st))) := hd ▸ at_self d
  have h1 := h0.left
  have hlen1 : (leBytes 4 (coffCount l) ++ (leBytes 4 (32 + gap.length) ++ rest)).length = 32 := by
    simp only [List.length_append, leBytes_length, hr]
  have h2 : At d 32 (gap ++ (l.flatMap CoffRec.bytes ++ st)) := h0.right (by rw [hlen1])
  have h3 : At d (32 + gap.length) (l.flatMap CoffRec.bytes ++ st) := h2.right rfl
  have h4 : At d (32 + gap.length + coffCount l * 18) st := h3.right (by omega)
  have hle := h4.1
  have c0 : rd 4 d 0 = coffCount l := by rw [h1.left.rd]; exact Nat.mod_eq_of_lt (by omega)
  have c4 : rd 4 d 4 = 32 + gap.length := by
    have : At d 4 (leBytes 4 (32 + gap.length) ++ rest) := h1.right (by rw [leBytes_length])
    rw [this.left.rd]; exact Nat.mod_eq_of_lt (by omega)
  refine ⟨fileNameRead d (32 + gap.length), ?_⟩
  unfold debugCoff
  rw [throwIf_neg (by omega), ok_bind, readN_ok (by omega), ok_bind, rd_slice (by omega), rd_slice (by omega), Nat.zero_add, Nat.zero_add, c0, c4,
    h1.slice_eq hlen1.symm]
  have hss : isSumSafe (coffCount l * 18) (32 + gap.length) = true := (isSumSafe_lt (by omega) (by omega)).mpr (by omega)
  dsimp only
  rw [throwIf_neg (by rw [hss]; simp; omega), ok_bind, throwIf_neg (by omega), ok_bind,
    coffLoop_want h4 (by omega) (by omega) l 0 [] hl (by omega) (by simpa using h3.left), ok_bind, List.nil_append]

theorem coffWant_noFile {f g : Nat → Bytes} : ∀ (l : List CoffRec) (i : Nat), (∀ r ∈ l, ¬ r.IsFile) → coffWant f i l = coffWant g i l
  | [], _, _ => rfl
  | r :: l, i, h => by
    unfold coffWant
    rw [if_neg (h r List.mem_cons_self), if_neg (h r List.mem_cons_self), coffWant_noFile l _ (fun q hq => h q (List.mem_cons_of_mem _ hq))]

/-- C66, understanding: raw debug data in one of the forms linkers write is understood. -/
theorem C66_understood_partial {type : Nat} {d : Option Bytes} {a : AdvInfo} (h : GoodDebug type d a) : debugAdv type d = .ok a := by
  cases h with
  | absent => rfl
  | other _ _ h1 h2 h4 => unfold debugAdv; dsimp only; rw [if_neg h1, if_neg h2, if_neg h4]
  | pdb70 guid name rest age hg ha hn => exact goodPdb70 guid name rest age hg ha hn
  | pdb20 off sig age name rest hs ha hn => exact goodPdb20 off sig age name rest hs ha hn
  | miscAnsi t pad res s rest ht hr hp hl hs =>
    refine goodMisc t (s.length + pad) 0 res _ rest _ ht hr (by simp) hp (by omega) (by omega) (fun _ => ?_) (fun h => absurd rfl h)
    exact congrArg Message.ansi (stripped_unique (stripped_of pad hs) (stripped_strip _))
  | miscWide t pad u res w rest ht hu hr hp hl hw hs =>
    have hz : UcsStr (w ++ List.replicate pad 0) := by
      intro c hc
      rcases List.mem_append.mp hc with hc | hc
      · exact hw c hc
      · have := List.eq_of_mem_replicate hc
        left; omega
    have hlen : (encUnits (w ++ List.replicate pad 0)).length = 2 * (w.length + pad) := by rw [encUnits_length]; simp
    refine goodMisc t (2 * (w.length + pad)) u res _ rest _ ht hr hlen (by omega) hl hu.2 (fun h => absurd h (by omega)) (fun _ =>
      ⟨w ++ List.replicate pad 0, by omega, ?_, ?_⟩)
    · rw [decUnits_enc hz.lt, fromUcs2_eq.mpr ⟨rfl, hz⟩]
    · exact congrArg Message.wide (stripped_unique (stripped_of pad hs) (stripped_strip _))
  | coff rest gap l st hr hl hf hs =>
    obtain ⟨f, h⟩ := C66_coff_partial rest gap l st hr hl hs
    rw [coffWant_noFile (g := fun _ => []) l 0 hf] at h
    exact h

theorem imageDebugLoop_reads {p : Image} (hp : Readable p) (fin pos : Nat) (hpos : pos + 28 < 4294967296) (dir : Bytes)
    (hdir : p.readT 28 pos .virt true = .ok dir) (recs : List (Bytes × AdvInfo)) (acc : List DebugInfo)
    (hrec : ∀ (i : Nat) (e : Bytes × AdvInfo), recs[i]? = some e → p.DebugRecord pos i e.1 ∧ rd 4 e.1 24 ≠ 0 ∧ pos + 28 * i < fin ∧
      GoodDebug (rd 4 e.1 12) (mapFind (rd 4 e.1 24) p.debugData) e.2)
    (hend : ∃ r, p.DebugRecord pos recs.length r ∧ (rd 4 r 24 = 0 ∨ fin ≤ pos + 28 * recs.length)) :
    p.debugLoop fin pos dir acc = .ok (acc ++ recs.map (fun e => { dir := e.1, adv := e.2 })) := by
  induction recs generalizing pos dir acc with
  | nil =>
    obtain ⟨r, h1, h2⟩ := hend
    unfold Image.DebugRecord at h1
    rw [List.length_nil, Nat.mul_zero, Nat.add_zero, hdir] at h1
    cases h1
    rw [Image.debugLoop, if_neg (by simp at h2; omega)]
    simp
  | cons e recs ih =>
    obtain ⟨h1, h2, h3, h4⟩ := hrec 0 e rfl
    unfold Image.DebugRecord at h1
    rw [Nat.mul_zero, Nat.add_zero, hdir] at h1
    have he : dir = e.1 := Except.ok.inj h1
    have hw : w32 (pos + 28) = pos + 28 := Nat.mod_eq_of_lt hpos
    have hss : isSumSafe pos 28 = true := (isSumSafe_lt (by omega) (by decide)).mpr (by omega)
    have hrec' : ∀ (i : Nat) (x : Bytes × AdvInfo), recs[i]? = some x → p.DebugRecord (pos + 28) i x.1 ∧ rd 4 x.1 24 ≠ 0 ∧
        pos + 28 + 28 * i < fin ∧ GoodDebug (rd 4 x.1 12) (mapFind (rd 4 x.1 24) p.debugData) x.2 := fun i x hx => by
      obtain ⟨j1, j2, j3, j4⟩ := hrec (i + 1) x (by simpa using hx)
      unfold Image.DebugRecord at j1 ⊢
      rw [show pos + 28 + 28 * i = pos + 28 * (i + 1) by omega]
      exact ⟨j1, j2, j3, j4⟩
    have hend' : ∃ r, p.DebugRecord (pos + 28) recs.length r ∧ (rd 4 r 24 = 0 ∨ fin ≤ pos + 28 + 28 * recs.length) := by
      obtain ⟨r, j1, j2⟩ := hend
      unfold Image.DebugRecord at j1 ⊢
      rw [List.length_cons] at j1 j2
      rw [show pos + 28 + 28 * recs.length = pos + 28 * (recs.length + 1) by omega]
      exact ⟨r, j1, j2⟩
    have hnext : ∃ nx, p.readT 28 (pos + 28) .virt true = .ok nx := by
      cases recs with
      | nil =>
        obtain ⟨r, j1, -⟩ := hend'
        exact ⟨r, by simpa [Image.DebugRecord] using j1⟩
      | cons x recs =>
        obtain ⟨j1, -⟩ := hrec' 0 x rfl
        exact ⟨x.1, by simpa [Image.DebugRecord] using j1⟩
    obtain ⟨nx, hnx⟩ := hnext
    have hlt := readT_below hp.reads hpos hnx
    rw [Image.debugLoop, if_pos ⟨by rw [he]; exact h2, by omega⟩, he, C66_understood_partial h4, ok_bind, throwIf_neg (by rw [hss]; decide),
      ok_bind, hw, hnx, ok_bind, dif_pos (by omega), ih (pos + 28) hlt nx hnx _ hrec' hend', List.append_assoc]
    rfl

/-- C66, nothing is lost: if the debug directory consists of records with raw data in the forms linkers write, then exactly these are reported, in
    order. Partial: a further record must be readable behind the end of the directory (`C66_end_of_image`), and the restrictions of
    `C66_coff_partial` apply. -/
theorem C66_reads_partial {p : Image} (hp : Readable p) {rva size m : Nat} (hd : p.hasDir dirDebug = .ok true)
    (hrva : p.nt.getDirRva dirDebug = .ok rva) (hsize : p.nt.getDirSize dirDebug = .ok size) (hfit : rva + size < 2 ^ 32)
    (hm : p.dataLenFrom rva rva .virt true = .ok m) (hm28 : 28 ≤ m) (recs : List (Bytes × AdvInfo))
    (hrec : ∀ (i : Nat) (e : Bytes × AdvInfo), recs[i]? = some e → p.DebugRecord rva i e.1 ∧ rd 4 e.1 24 ≠ 0 ∧ 28 * i < size ∧
      GoodDebug (rd 4 e.1 12) (mapFind (rd 4 e.1 24) p.debugData) e.2)
    (hend : ∃ r, p.DebugRecord rva recs.length r ∧ (rd 4 r 24 = 0 ∨ size ≤ 28 * recs.length)) :
    p.getDebug = .ok (recs.map (fun e => { dir := e.1, adv := e.2 })) := by
  have hfirst : ∃ r, p.readT 28 rva .virt true = .ok r := by
    cases recs with
    | nil => obtain ⟨r, j1, -⟩ := hend; exact ⟨r, by simpa [Image.DebugRecord] using j1⟩
    | cons x recs => obtain ⟨j1, -⟩ := hrec 0 x rfl; exact ⟨x.1, by simpa [Image.DebugRecord] using j1⟩
  obtain ⟨r, hr⟩ := hfirst
  have hss : isSumSafe rva size = true := (isSumSafe_lt (by omega) (by omega)).mpr (by omega)
  unfold Image.getDebug
  rw [hd, ok_bind, if_pos rfl, hrva, ok_bind, hm, ok_bind, throwIf_neg (by omega), ok_bind, hr, ok_bind, hsize, ok_bind,
    throwIf_neg (by rw [hss]; decide), ok_bind, show w32 (rva + size) = rva + size from Nat.mod_eq_of_lt (by omega),
    imageDebugLoop_reads hp _ rva (readT_below hp.reads (hp.dirRva_lt hrva) hr) r hr recs []
      (fun i e he => by obtain ⟨j1, j2, j3, j4⟩ := hrec i e he; exact ⟨j1, j2, by omega, j4⟩)
      (by obtain ⟨r', j1, j2⟩ := hend; exact ⟨r', j1, by omega⟩), List.nil_append]

/-! ### The raw data comes from the file -/

theorem loadDebugLoop_raw {p : Image} {file : Bytes} (fin : Nat) (f : Stream) (hf : f.data = file ∧ f.strict = false ∧ f.fail = false) (pos : Nat)
    (d : Bytes) (acc l : List (Nat × Bytes)) (hacc : ∀ e ∈ acc, e.1 + e.2.length ≤ file.length ∧ e.2 = slice file e.1 e.2.length)
    (h : debugLoop p fin f pos d acc = .ok l) : ∀ e ∈ l, e.1 + e.2.length ≤ file.length ∧ e.2 = slice file e.1 e.2.length := by
  induction hm : 4294967296 - pos using Nat.strongRecOn generalizing pos f d acc with
  | _ m ih =>
    rw [debugLoop] at h
    by_cases hc : rd 4 d 24 ≠ 0 ∧ pos < fin
    · rw [if_pos hc] at h
      have hg : f.seekg (rd 4 d 24) = { f with eof := false, pos := rd 4 d 24 } := by
        unfold Stream.seekg
        dsimp only
        rw [hf.2.1, hf.2.2, if_neg (by decide), if_pos ⟨by omega, by intro h; cases h⟩]
        rfl
      rw [hg] at h
      have key : ∀ (f' : Stream) (acc' : List (Nat × Bytes)), (f'.data = file ∧ f'.strict = false ∧ f'.fail = false) →
          (∀ e ∈ acc', e.1 + e.2.length ≤ file.length ∧ e.2 = slice file e.1 e.2.length) →
          ((match p.readT 28 (w32 (pos + 28)) .virt true with
            | .error (.exn _) => .ok acc'
            | .error (.ub u) => .error (.ub u)
            | .ok d => if h : pos < w32 (pos + 28) then debugLoop p fin f' (w32 (pos + 28)) d acc' else ubE .hang) : Res (List (Nat × Bytes))) =
              .ok l →
          ∀ e ∈ l, e.1 + e.2.length ≤ file.length ∧ e.2 = slice file e.1 e.2.length := by
        intro f' acc' hf' hacc' h
        split at h
        · cases h; exact hacc'
        · cases h
        · split at h
          · rename_i hlt
            have : w32 (pos + 28) < 4294967296 := Nat.mod_lt _ (by decide)
            exact ih _ (by omega) f' hf' _ _ acc' hacc' h rfl
          · cases h
      dsimp only at h
      by_cases hwant : (rd 4 d 12 = 2 ∨ rd 4 d 12 = 4 ∨ rd 4 d 12 = 1) ∧ rd 4 d 16 ≠ 0
      · by_cases hs : rd 4 d 24 + rd 4 d 16 ≤ file.length
        · have hread : ({ f with eof := false, pos := rd 4 d 24 } : Stream).read (rd 4 d 16) =
              (slice file (rd 4 d 24) (rd 4 d 16), { f with eof := false, pos := rd 4 d 24 + rd 4 d 16 }) := by
            unfold Stream.read
            dsimp only
            rw [hf.1, hf.2.2, if_neg (by simp), if_neg (by rw [slice_length_of_le hs]; omega)]
          rw [hread, if_neg (by simp)] at h
          simp only [if_pos hwant] at h
          refine key { f with eof := false, pos := rd 4 d 24 + rd 4 d 16 } _ ⟨hf.1, hf.2.1, hf.2.2⟩ ?_ h
          intro e he
          unfold mapInsert at he
          split at he
          · exact hacc e he
          · rcases List.mem_append.mp he with he | he
            · exact hacc e he
            · rw [List.mem_singleton] at he
              subst he
              have hl : (slice file (rd 4 d 24) (rd 4 d 16)).length = rd 4 d 16 := slice_length_of_le hs
              have hr : resize (slice file (rd 4 d 24) (rd 4 d 16)) (rd 4 d 16) = slice file (rd 4 d 24) (rd 4 d 16) := by
                unfold resize
                rw [List.take_of_length_le (by omega), hl]; simp [zeros]
              dsimp only
              rw [hr, hl]
              exact ⟨hs, rfl⟩
        · have hread : (({ f with eof := false, pos := rd 4 d 24 } : Stream).read (rd 4 d 16)).2.eof = true := by
            unfold Stream.read
            dsimp only
            rw [hf.1, hf.2.2, if_neg (by simp), if_pos (by rw [slice_length]; omega)]
          rw [if_pos ⟨hwant, hread⟩] at h
          cases h; exact hacc
      · rw [if_neg (fun hc => hwant hc.1)] at h
        simp only [if_neg hwant] at h
        exact key _ _ hf hacc h
    · rw [if_neg hc] at h
      cases h
      exact hacc

/-- C66, raw data: the raw debug data of an image loaded from a file stream is exactly what stands in the file at the place under which it is
    found. (Not for a strict stream, see `C66_strict_stream`.) -/
theorem C66_raw_data {k : Kind} {fromMem dbg : Bool} {pre : List (Nat × Nat)} {file : Bytes} {p : Image}
    (h : load k false fromMem dbg pre file = .ok p) (ptr : Nat) (d : Bytes) (hd : mapFind ptr p.debugData = some d) :
    ptr + d.length ≤ file.length ∧ d = slice file ptr d.length := by
  have hm := mapFind_mem hd
  unfold load at h
  obtain ⟨⟨q, f⟩, hq, h⟩ := bind_ok_iff.mp h
  obtain ⟨ok, rfl, rfl⟩ := loadCore_iff.mp hq
  dsimp only at h
  split at h
  · obtain ⟨l, hl, h⟩ := bind_ok_iff.mp h
    replace h := Except.ok.inj h
    subst h
    unfold loadDebug at hl
    obtain ⟨b, -, hl⟩ := bind_ok_iff.mp hl
    split at hl
    · generalize hgo : (do
        let rva ← (imageOf k fromMem pre file).nt.getDirRva dirDebug
        let n ← (imageOf k fromMem pre file).dataLenFrom rva rva .virt true
        if n < 28 then Except.ok []
        else
          let size ← (imageOf k fromMem pre file).nt.getDirSize dirDebug
          let d ← (imageOf k fromMem pre file).readT 28 rva .virt true
          debugLoop (imageOf k fromMem pre file) (w32 (rva + size)) (st file false (headersLen (ntOf k pre file (rd 4 file 60)) file.length
            (secsOf (ntOf k pre file (rd 4 file 60)) fromMem file))) rva d [] : Res (List (Nat × Bytes))) = go at hl
      dsimp only at hl
      split at hl
      · cases hl; cases hm
      · rw [hl] at hgo
        obtain ⟨rva, -, hgo⟩ := bind_ok_iff.mp hgo
        obtain ⟨n, -, hgo⟩ := bind_ok_iff.mp hgo
        split at hgo
        · cases hgo; cases hm
        · obtain ⟨size, -, hgo⟩ := bind_ok_iff.mp hgo
          obtain ⟨r, -, hgo⟩ := bind_ok_iff.mp hgo
          exact loadDebugLoop_raw _ _ ⟨rfl, rfl, rfl⟩ _ _ [] l (by simp) hgo _ hm
    · cases hl; cases hm
  · replace h := Except.ok.inj h
    subst h
    cases hm

/-! ### Examples and what goes wrong -/

/-- A record of a debug directory. -/
def dbgRec (type size ptr : Nat) : Bytes :=
  leBytes 4 0 ++ leBytes 4 0x5f000000 ++ leBytes 2 1 ++ leBytes 2 2 ++ leBytes 4 type ++ leBytes 4 size ++ leBytes 4 0 ++ leBytes 4 ptr

/-- The demo image with the debug directory `b` of `size` bytes at `rva` in its last section, and raw data. -/
def dbgImage (rva size : Nat) (b : Bytes) (raw : List (Nat × Bytes)) : Image := { demoImage with
  nt := { demoImage.nt with dirs := demoImage.nt.dirs.set 6 (rva, size) },
  secs := [demoImage.secs[0]'(by decide), { (demoImage.secs[1]'(by decide)) with data := zeros (rva - 0x2000) ++ b }],
  debugData := raw }

def dbgGuid : Bytes := List.replicate 16 7
/-- PDB 7.0 information with age 3 and the name "a.pdb". -/
def dbgPdb : Bytes := sigRSDS ++ (dbgGuid ++ (leBytes 4 3 ++ (([97, 46, 112, 100, 98] ++ [0]) ++ [])))
/-- Misc information: the name "a.exe". -/
def dbgMisc : Bytes := leBytes 4 1 ++ (leBytes 4 (12 + (5 + 3)) ++ (leBytes 1 0 ++ (zeros 3 ++ (([97, 46, 101, 120, 101] ++ List.replicate 3 0) ++ []))))
/-- Two symbols: the function "main" at 0x1000 with one auxiliary record, and the function "long_name" at 0x1100. -/
def dbgSyms : List CoffRec := [
  { name := .short [109, 97, 105, 110], value := 0x1000, sec := 1, type := 0x20, cls := 2, aux := [zeros 18] },
  { name := .long 4 [108, 111, 110, 103, 95, 110, 97, 109, 101], value := 0x1100, sec := 1, type := 0x20, cls := 2 }]
def dbgStrings : Bytes := leBytes 4 14 ++ [108, 111, 110, 103, 95, 110, 97, 109, 101, 0]
def dbgCoff : Bytes := coffData (zeros 24) [] dbgSyms dbgStrings

theorem dbgSyms_ok : ∀ r ∈ dbgSyms, r.Ok dbgStrings := by
  intro r hr
  unfold dbgSyms at hr
  rcases List.mem_cons.mp hr with rfl | hr
  · refine ⟨by decide, by decide, by decide, by decide, by decide, by decide, by decide, ?_, ?_⟩
    · intro s h; cases h; decide
    · intro o s h; cases h
  · rcases List.mem_cons.mp hr with rfl | hr
    · refine ⟨by decide, by decide, by decide, by decide, by decide, by decide, by decide, ?_, ?_⟩
      · intro s h; cases h
      · intro o s h; cases h; decide
    · cases hr

def dbgDemo : Image := dbgImage 0x2000 84 (dbgRec 2 30 0x900 ++ dbgRec 4 20 0xa00 ++ dbgRec 1 100 0xb00)
  [(0x900, dbgPdb), (0xa00, dbgMisc), (0xb00, dbgCoff)]

theorem dbgDemo_readable : Readable dbgDemo := by
  refine ⟨readsBelow_of (by decide +kernel) ?_, ⟨by decide +kernel, by decide +kernel⟩, by decide +kernel, by decide +kernel⟩
  decide +kernel

/-- `C66_reads_partial` applies to this image: the three records are reported with their information. -/
example : dbgDemo.getDebug = .ok [
    { dir := dbgRec 2 30 0x900, adv := .pdb70 dbgGuid 3 [97, 46, 112, 100, 98] },
    { dir := dbgRec 4 20 0xa00, adv := .misc 1 (.ansi [97, 46, 101, 120, 101]) },
    { dir := dbgRec 1 100 0xb00, adv := .coff (leBytes 4 3 ++ (leBytes 4 32 ++ zeros 24)) [
      { index := 0, cls := 2, type := 0x20, sec := 1, rva := 0x1000, isFile := false, name := [109, 97, 105, 110] },
      { index := 2, cls := 2, type := 0x20, sec := 1, rva := 0x1100, isFile := false, name := [108, 111, 110, 103, 95, 110, 97, 109, 101] }] }] := by
  refine C66_reads_partial dbgDemo_readable (rva := 0x2000) (size := 84) (m := 0x1000) (by decide +kernel) (by decide +kernel) (by decide +kernel)
    (by decide) (by decide +kernel) (by decide) [(dbgRec 2 30 0x900, _), (dbgRec 4 20 0xa00, _), (dbgRec 1 100 0xb00, _)] ?_
    ⟨zeros 28, by unfold Image.DebugRecord; decide +kernel, by decide⟩
  intro i e he
  rcases i with _ | _ | _ | i
  · cases he
    exact ⟨by unfold Image.DebugRecord; decide +kernel, by decide, by decide, GoodDebug.pdb70 dbgGuid _ [] 3 rfl (by decide) (by decide)⟩
  · cases he
    exact ⟨by unfold Image.DebugRecord; decide +kernel, by decide, by decide,
      GoodDebug.miscAnsi 1 3 (zeros 3) [97, 46, 101, 120, 101] [] (by decide) rfl (by decide) (by decide) (by decide)⟩
  · cases he
    exact ⟨by unfold Image.DebugRecord; decide +kernel, by decide, by decide,
      GoodDebug.coff (zeros 24) [] dbgSyms dbgStrings rfl dbgSyms_ok (by decide) (by decide)⟩
  · cases he

/-- C47, the exception: raw data of 13 bytes whose length field says 11 makes the reader take a range of nearly 2^64 bytes. -/
theorem C47_short_misc : ∃ p, Readable p ∧ p.getDebug = .error (.ub .oobRead) := by
  refine ⟨dbgImage 0x2000 28 (dbgRec 4 13 0x900) [(0x900, leBytes 4 1 ++ leBytes 4 11 ++ zeros 5)], ?_, isUb_eq (by decide +kernel)⟩
  refine ⟨readsBelow_of (by decide +kernel) ?_, ⟨by decide +kernel, by decide +kernel⟩, by decide +kernel, by decide +kernel⟩
  decide +kernel

/-- C66, not so: CodeView information of the kinds without a structure is never reported as such, whatever the raw data. -/
theorem C66_codeview_lost (p : Image) (hp : Readable p) (l : List DebugInfo) (h : p.getDebug = .ok l) :
    ∀ e ∈ l, e.adv ≠ .codeview40 ∧ e.adv ≠ .codeview50 ∧ e.adv ≠ .codeview := by
  intro e he
  rcases C66_entries hp h with ⟨-, rfl⟩ | ⟨rva, size, -, -, h1, -⟩
  · cases he
  · obtain ⟨i, hi⟩ := List.mem_iff_getElem?.mp he
    obtain ⟨⟨-, -, h2⟩, -⟩ := h1 i e hi
    refine ⟨?_, ?_, ?_⟩
    all_goals
      intro hc
      rw [hc] at h2
      split at h2
      · cases h2
      · exact h2

/-- C66, not so: the name of a source file is taken from the wrong place. Here the file symbol says "a.c", and the name reported is what
    stands at offset 18, the end of the header and the beginning of the symbol itself. -/
theorem C66_file_name_wrong : ∃ (r : CoffRec) (rest : Bytes), r.Ok [] ∧ r.IsFile ∧ r.aux.flatten = [97, 46, 99] ++ zeros 15 ∧
    debugCoff (coffData rest [] [r] []) = .ok (.coff (leBytes 4 2 ++ (leBytes 4 32 ++ rest))
      [{ index := 0, cls := 103, type := 0, isFile := true, name := [1] ++ zeros 13 ++ [46, 102, 105, 108] }]) := by
  refine ⟨{ name := .short [46, 102, 105, 108, 101], value := 0, sec := 0xfffe, type := 0, cls := 103, aux := [[97, 46, 99] ++ zeros 15] },
    zeros 10 ++ [1] ++ zeros 13, ?_, rfl, by decide, by decide +kernel⟩
  refine ⟨by decide, by decide, by decide, by decide, by decide, by decide, by decide, ?_, ?_⟩
  · intro s h; cases h; decide
  · intro o s h; cases h

/-- C66, not so: the auxiliary record of a symbol that is not reported is taken for a symbol. Here the only symbol is a static one with an
    auxiliary record (a section definition), and a function "zzz" is reported. -/
theorem C66_aux_as_symbol : ∃ (r : CoffRec), ¬ r.IsFile ∧ ¬ r.IsCode ∧ r.aux.length = 1 ∧
    debugCoff (coffData (zeros 24) [] [r] []) = .ok (.coff (leBytes 4 2 ++ (leBytes 4 32 ++ zeros 24))
      [{ index := 1, cls := 2, type := 0x20, sec := 1, rva := 5, isFile := false, name := [122, 122, 122] }]) := by
  refine ⟨⟨.short [46, 116, 101, 120, 116], 0, 1, 0, 3, [[122, 122, 122, 0, 0, 0, 0, 0, 5, 0, 0, 0, 1, 0, 0x20, 0, 2, 0]]⟩, by decide, by decide, by decide, by decide +kernel⟩

/-- C66, not so: a directory with one good record of 28 bytes at the very end of the last section cannot be read, for a record behind it is looked at
    although the directory is over. -/
theorem C66_end_of_image : ∃ p, Readable p ∧ p.nt.getDirSize dirDebug = .ok 28 ∧
    p.DebugRecord 0x2fe4 0 (dbgRec 2 30 0x900) ∧ p.nt.getDirRva dirDebug = .ok 0x2fe4 ∧ mapFind 0x900 p.debugData = some dbgPdb ∧
    ∃ e, p.getDebug = .error (.exn e) := by
  refine ⟨dbgImage 0x2fe4 28 (dbgRec 2 30 0x900) [(0x900, dbgPdb)], ?_, by decide +kernel, by unfold Image.DebugRecord; decide +kernel,
    by decide +kernel, by decide +kernel, .noSectionFound, ?_⟩
  · refine ⟨readsBelow_of (by decide +kernel) ?_, ⟨by decide +kernel, by decide +kernel⟩, by decide +kernel, by decide +kernel⟩
    decide +kernel
  · decide +kernel

/-- A small file with a debug directory of one record whose raw data is said to be the `size` bytes at offset `ptr` of the file. -/
def dbgFile (size ptr : Nat) : Bytes :=
  [0x4d, 0x5a] ++ zeros 58 ++ leBytes 4 64 ++ encFields (ntFields .pe32 { tinyNt 1 1088 288 with numRva := 7, sizeOptHdr := 152 }) ++
    zeros 48 ++ (leBytes 4 1024 ++ leBytes 4 28) ++ encSec (tinySec 64 1024 60 288) ++ (zeros 8 ++ dbgRec 2 size ptr ++ zeros 32)

/-- `C66_raw_data` is about files like this one. -/
example : ∃ p, load .pe32 false false true zeroDirs (dbgFile 4 300) = .ok p ∧ mapFind 300 p.debugData = some (slice (dbgFile 4 300) 300 4) := by
  obtain ⟨p, h1, h2⟩ := exists_of_okAnd (x := load .pe32 false false true zeroDirs (dbgFile 4 300))
    (f := fun p => decide (mapFind 300 p.debugData = some (slice (dbgFile 4 300) 300 4))) (by decide +kernel)
  exact ⟨p, h1, by simpa using h2⟩

/-- C66, not so for strict streams (like string streams, which fail on seeking behind their end): raw data of zeros is made up for a record that points
    behind the end of the file. -/
theorem C66_strict_stream : ∃ file p, load .pe32 true false true zeroDirs file = .ok p ∧ file.length < 0x7000 ∧
    mapFind 0x7000 p.debugData = some (zeros 9) := by
  obtain ⟨p, h1, h2⟩ := exists_of_okAnd (x := load .pe32 true false true zeroDirs (dbgFile 9 0x7000))
    (f := fun p => decide (mapFind 0x7000 p.debugData = some (zeros 9))) (by decide +kernel)
  exact ⟨_, p, h1, by decide +kernel, by simpa using h2⟩

/-- C66: GUIDs are equal exactly if their sixteen bytes are. -/
theorem C66_guid_eq (a b : Bytes) (ha : a.length = 16) (hb : b.length = 16) : guidEq a b = true ↔ a = b := by
  constructor
  · intro h
    unfold guidEq at h
    simp only [Bool.and_eq_true, beq_iff_eq] at h
    obtain ⟨⟨⟨h1, h2⟩, h3⟩, h4⟩ := h
    have key : ∀ x : Bytes, x.length = 16 → x = leBytes 4 (rd 4 x 0) ++ (leBytes 2 (rd 2 x 4) ++ (leBytes 2 (rd 2 x 6) ++ slice x 8 8)) := by
      intro x hx
      unfold rd
      have e : ∀ o n, o + n ≤ 16 → leBytes n (fromLE (slice x o n)) = slice x o n := by
        intro o n hn
        have := leBytes_fromLE (slice x o n)
        rwa [slice_length_of_le (by omega)] at this
      rw [e 0 4 (by decide), e 4 2 (by decide), e 6 2 (by decide)]
      have e1 : slice x 6 2 ++ slice x 8 8 = slice x 6 10 := (slice_add (m := 2) (n := 8)).symm
      have e2 : slice x 4 2 ++ slice x 6 10 = slice x 4 12 := (slice_add (m := 2) (n := 10)).symm
      have e3 : slice x 0 4 ++ slice x 4 12 = slice x 0 16 := (slice_add (m := 4) (n := 12)).symm
      rw [e1, e2, e3, ← hx]
      exact (slice_zero_length x).symm
    rw [key a ha, key b hb, h1, h2, h3, h4]
  · rintro rfl
    unfold guidEq
    simp

example : guidEq dbgGuid dbgGuid = true ∧ guidEq dbgGuid (dbgGuid.set 15 0xEE) = false := by decide

end PE
