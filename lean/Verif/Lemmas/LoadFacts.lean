/-
Consequences of a successful load.
-/
import Verif.Lemmas.Load
import Verif.Lemmas.Header
namespace PE

theorem alignUp_zero_align {x : Nat} (hx : x < 4294967296) : alignUp x 0 = 0 := by
  unfold alignUp alignUpT
  split
  · have : alignDownT 4294967296 x 0 = 0 := by unfold alignDownT; simp
    rw [this]
  · next h =>
    simp only [ne_eq, Decidable.not_not] at h
    have e : sub32 0 1 % 4294967296 = 2 ^ 32 - 1 := by decide
    rw [e, Nat.and_two_pow_sub_one_eq_mod] at h
    omega

theorem NtOk.pow2sa {k : Kind} {h : NtHdr} (ok : NtOk k h) (h1 : h.secAlign < 4294967296) (h2 : h.sizeImage < 4294967296) :
    Pow2 h.secAlign := by
  rcases (isPowerOf2_iff h1).mp ok.sa with h0 | h0
  · exact absurd (by rw [h0]; exact alignUp_zero_align h2) ok.img
  · exact h0

theorem NtOk.pow2fa {k : Kind} {h : NtHdr} (ok : NtOk k h) (h1 : h.secAlign < 4294967296) (h2 : h.sizeImage < 4294967296)
    (h3 : h.fileAlign < 4294967296) : Pow2 h.fileAlign := by
  have := (ok.pow2sa h1 h2).pos
  rcases (isPowerOf2_iff h3).mp ok.fa with h0 | h0
  · have := ok.rel; omega
  · exact h0

theorem ceilTo_le_2gb {a x : Nat} (ha : Pow2 a) (hx : x ≤ 2147483648) : ceilTo x a ≤ 2147483648 := by
  refine ceilTo_least ha.pos ?_ hx
  obtain ⟨k, hk, rfl⟩ := ha
  exact Nat.pow_dvd_pow 2 (show k ≤ 31 by omega)

theorem alignUp_2gb {a x : Nat} (ha : Pow2 a) (hx : x ≤ 2147483648) : alignUp x a = ceilTo x a :=
  alignUp_of_le ha (by omega) (by have := ceilTo_le_2gb ha hx; omega)

/-- Everything known about a section made by the loader. -/
structure SecFacts (h : NtHdr) (fromMem : Bool) (file : Bytes) (t s : Sec) : Prop where
  name : s.name = t.name
  vsize : s.vsize = t.vsize
  va : s.va = t.va
  rawPtr : s.rawPtr = t.rawPtr
  relPtr : s.relPtr = t.relPtr
  linePtr : s.linePtr = t.linePtr
  nReloc : s.nReloc = t.nReloc
  nLine : s.nLine = t.nLine
  chars : s.chars = t.chars
  rawSize : s.rawSize = if ceilTo t.vsize h.secAlign < ceilTo t.rawSize h.fileAlign then t.vsize else t.rawSize
  data : s.data = slice file (if fromMem then t.va / h.secAlign * h.secAlign else t.rawPtr / h.fileAlign * h.fileAlign) s.rawSize
  bytes : s.rawSize ≠ 0 →
    (if fromMem then t.va / h.secAlign * h.secAlign else t.rawPtr / h.fileAlign * h.fileAlign) + s.rawSize ≤ file.length
  len : s.data.length = s.rawSize
  span : s.alignedVS h.secAlign = s.span h.secAlign
  spanLe : s.span h.secAlign ≤ 2147483648
  rawLe : s.rawSize ≤ s.span h.secAlign
  inImage : w32 (s.va + s.span h.secAlign) ≤ alignUp h.sizeImage h.secAlign

theorem mkSec_facts {h : NtHdr} {strict fromMem : Bool} {file : Bytes} {t : Sec} (sa : Pow2 h.secAlign) (fa : Pow2 h.fileAlign)
    (hd : t.data = []) (ok : SecOk h strict fromMem file t) : SecFacts h fromMem file t (mkSec h fromMem file t) := by
  obtain ⟨n0, v1, v2, r1, r2⟩ := ok.hdr
  have hf := ok.fin
  have ev := alignUp_2gb sa v2
  have er := alignUp_2gb fa r2
  have hvs := ceilTo_le_2gb sa v2
  have hgev := ceilTo_ge (x := t.vsize) sa.pos
  have hger := ceilTo_ge (x := t.rawSize) fa.pos
  by_cases hr : t.rawSize ≠ 0
  · have hm : mkSec h fromMem file t = rawSec h fromMem file (fixRaw h t) := by unfold mkSec; rw [if_pos hr]
    have hro := ok.raw hr
    rw [hm] at hf ⊢
    have hoff : rawOff h fromMem t = if fromMem then t.va / h.secAlign * h.secAlign else t.rawPtr / h.fileAlign * h.fileAlign := by
      unfold rawOff
      rw [alignDown_eq sa (by omega), alignDown_eq fa (by omega)]
    by_cases hc : ceilTo t.vsize h.secAlign < ceilTo t.rawSize h.fileAlign
    · have hfx : fixRaw h t = { t with rawSize := t.vsize } := by
        unfold fixRaw; rw [ev, er, if_pos hc]
      rw [hfx] at hf hro ⊢
      have hoff' : rawOff h fromMem { t with rawSize := t.vsize } = rawOff h fromMem t := rfl
      have hrd := hro.read
      rw [hoff'] at hrd
      have hal : (rawSec h fromMem file { t with rawSize := t.vsize }).alignedVS h.secAlign = ceilTo t.vsize h.secAlign := by
        unfold Sec.alignedVS rawSec
        dsimp only
        rw [if_neg (by omega), ev]
      have hsp : (rawSec h fromMem file { t with rawSize := t.vsize }).span h.secAlign = ceilTo t.vsize h.secAlign := by
        unfold Sec.span rawSec
        dsimp only
        split <;> simp_all
      refine ⟨rfl, rfl, rfl, rfl, rfl, rfl, rfl, rfl, rfl, ?_, ?_, ?_, ?_, ?_, ?_, ?_, ?_⟩
      · rw [if_pos hc]; rfl
      · rw [← hoff]; rfl
      · intro hz; rw [← hoff]; show _ + t.vsize ≤ _
        change t.vsize ≠ 0 at hz; dsimp only at hrd; omega
      · show (slice file (rawOff h fromMem t) t.vsize).length = t.vsize
        rw [slice_length]; dsimp only at hrd; omega
      · rw [hal, hsp]
      · rw [hsp]; exact hvs
      · rw [hsp]; exact hgev
      · rw [hal] at hf; rw [hsp]; exact hf
    · have hfx : fixRaw h t = t := by
        unfold fixRaw; rw [ev, er, if_neg hc]
      rw [hfx] at hf hro ⊢
      have hrd := hro.read
      have hv0 : t.vsize ≠ 0 := by
        intro h0; rw [h0, ceilTo_zero] at hc; omega
      have hal : (rawSec h fromMem file t).alignedVS h.secAlign = ceilTo t.vsize h.secAlign := by
        unfold Sec.alignedVS rawSec
        dsimp only
        rw [if_neg (by omega), ev]
      have hsp : (rawSec h fromMem file t).span h.secAlign = ceilTo t.vsize h.secAlign := by
        unfold Sec.span rawSec
        dsimp only
        rw [if_neg hv0]
      refine ⟨rfl, rfl, rfl, rfl, rfl, rfl, rfl, rfl, rfl, ?_, ?_, ?_, ?_, ?_, ?_, ?_, ?_⟩
      · rw [if_neg hc]; rfl
      · rw [← hoff]; rfl
      · intro hz; rw [← hoff]; show _ + t.rawSize ≤ _; omega
      · show (slice file (rawOff h fromMem t) t.rawSize).length = t.rawSize
        rw [slice_length]; omega
      · rw [hal, hsp]
      · rw [hsp]; exact hvs
      · rw [hsp]; show t.rawSize ≤ _; omega
      · rw [hal] at hf; rw [hsp]; exact hf
  · have hr0 : t.rawSize = 0 := by omega
    have hm : mkSec h fromMem file t = t := by unfold mkSec; rw [if_neg hr]
    rw [hm] at hf ⊢
    have hsp : t.span h.secAlign = ceilTo t.vsize h.secAlign := by
      unfold Sec.span; split <;> simp_all
    have hal : t.alignedVS h.secAlign = ceilTo t.vsize h.secAlign := by
      unfold Sec.alignedVS; rw [if_neg (by omega), ev]
    refine ⟨rfl, rfl, rfl, rfl, rfl, rfl, rfl, rfl, rfl, ?_, ?_, ?_, ?_, ?_, ?_, ?_, ?_⟩
    · rw [hr0, ceilTo_zero]; split <;> omega
    · rw [hd, hr0]; simp [slice]
    · intro h; exact absurd hr0 h
    · rw [hd, hr0]; rfl
    · rw [hal, hsp]
    · rw [hsp]; exact hvs
    · omega
    · rw [hal] at hf; rw [hsp]; exact hf

theorem ntOf_bounds (k : Kind) (pre : List (Nat × Nat)) (file : Bytes) (lf : Nat) :
    let h := ntOf k pre file lf
    h.secAlign < 4294967296 ∧ h.fileAlign < 4294967296 ∧ h.sizeImage < 4294967296 ∧ h.sizeHeaders < 4294967296 ∧
    h.numRva ≤ 16 ∧ h.numSections < 65536 ∧ h.sizeOptHdr < 65536 := by
  unfold ntOf NtHdr.readDirs NtHdr.clampRva decNt
  dsimp only
  refine ⟨rd_lt 4 _ _, rd_lt 4 _ _, rd_lt 4 _ _, rd_lt 4 _ _, ?_, rd_lt 2 _ _, rd_lt 2 _ _⟩
  split <;> omega

theorem ntOf_dirs_length (k : Kind) {pre : List (Nat × Nat)} (hp : pre.length = 16) (file : Bytes) (lf : Nat) :
    (ntOf k pre file lf).dirs.length = 16 := by
  have hb := (ntOf_bounds k pre file lf).2.2.2.2.1
  have : (ntOf k pre file lf).dirs = decDirs (slice file (lf + k.sizeofNtBase) (8 * (ntOf k pre file lf).numRva))
      (ntOf k pre file lf).numRva ++ pre.drop (ntOf k pre file lf).numRva := rfl
  rw [this, List.length_append, decDirs_length, List.length_drop, hp]
  omega

theorem decSec_data (b : Bytes) : (decSec b).data = [] := rfl

end PE
