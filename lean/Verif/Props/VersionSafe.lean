/-
C63: reading version information: exactly which data makes the reader read outside the data or loop forever.
-/
import Verif.Props.VersionInfo
import Verif.Props.IconsMore

namespace PE

/-! ### The defects, in terms of the data -/

/-- A block at `pos` (blocks are at multiples of 4) with the key `k`. -/
def KeyAt (d : Bytes) (pos : Nat) (k : WStr) : Prop := pos % 4 = 0 ∧ 0 ∉ k ∧ ∃ rest, d.drop (pos + 6) = encUnits k ++ zeros 2 ++ rest

/-- A block claims a length that is at most 3 below 64 KiB. -/
def LongBlock (d : Bytes) : Prop := ∃ pos k, KeyAt d pos k ∧ 65533 ≤ rd 2 d pos

/-- A block claims a value whose end is outside the data, if its length counts words. -/
def LongValue (d : Bytes) : Prop := ∃ pos k, KeyAt d pos k ∧ d.length < pos + ceilTo (6 + 2 * (k.length + 1)) 4 + 2 * rd 2 d (pos + 2)

/-- A block Translation claims a value whose end, rounded up to whole pairs, is outside the data. -/
def LongPairs (d : Bytes) : Prop :=
  ∃ pos, KeyAt d pos keyTrans ∧ d.length < pos + ceilTo (6 + 2 * (keyTrans.length + 1)) 4 + ceilTo (rd 2 d (pos + 2)) 4

/-- The undefined behaviour and its reasons. -/
def ViBad (d : Bytes) (u : UB) : Prop := (u = .hang ∧ LongBlock d) ∨ (u = .oobRead ∧ (LongValue d ∨ LongPairs d))

/-! ### Lemmas -/

theorem decUnits_first : ∀ (n : Nat) (x : Bytes), x.length ≤ n → (decUnits x).all (· ≠ 0) = false →
    ∃ rest, x = encUnits ((decUnits x).takeWhile (· ≠ 0)) ++ zeros 2 ++ rest
  | 0, x, hn, h => by
    have : x = [] := List.length_eq_zero_iff.mp (by omega)
    subst this
    simp [decUnits] at h
  | n + 1, [], _, h => by simp [decUnits] at h
  | n + 1, [a], _, h => by simp [decUnits] at h
  | n + 1, a :: b :: r, hn, h => by
    have hr : r.length ≤ n := by simp only [List.length_cons] at hn; omega
    have hx : leBytes 2 (fromLE [a, b]) = [a, b] := by
      have := (encUnits_dec 1 [a, b] rfl).1
      simpa [encUnits, decUnits] using this
    rw [decUnits]
    by_cases h0 : fromLE [a, b] = 0
    · rw [List.takeWhile_cons, if_neg (by simp [h0])]
      refine ⟨r, ?_⟩
      rw [h0] at hx
      show a :: b :: r = leBytes 2 0 ++ r
      rw [hx]; rfl
    · rw [decUnits, List.all_cons] at h
      have hd : decide (fromLE [a, b] ≠ 0) = true := decide_eq_true h0
      rw [hd, Bool.true_and] at h
      obtain ⟨rest, e⟩ := decUnits_first n r hr h
      rw [List.takeWhile_cons, if_pos hd]
      refine ⟨rest, ?_⟩
      show a :: b :: r = leBytes 2 (fromLE [a, b]) ++ encUnits _ ++ zeros 2 ++ rest
      rw [hx]
      show a :: b :: r = a :: b :: (encUnits _ ++ zeros 2 ++ rest)
      rw [← e]

theorem takeWhile_zero (w : WStr) : 0 ∉ w.takeWhile (· ≠ 0) := by
  intro h
  have h1 := List.all_takeWhile (l := w) (p := fun x => decide (x ≠ 0))
  have := List.all_eq_true.mp h1 0 h
  simp at this

theorem viKey_keyAt {d : Bytes} {pos : Nat} {k : WStr} (hp : pos % 4 = 0) (h : viKey d pos = .ok k) : KeyAt d pos k := by
  unfold viKey at h
  dsimp only at h
  rw [throwIf_bind_ok_iff] at h
  obtain ⟨h1, h2⟩ := h
  injection h2 with h2
  subst h2
  exact ⟨hp, takeWhile_zero _, decUnits_first _ _ (Nat.le_refl _) (by simpa using h1)⟩

theorem KeyAt.fits {d : Bytes} {pos : Nat} {k : WStr} (h : KeyAt d pos k) : pos + 6 + 2 * (k.length + 1) ≤ d.length := by
  obtain ⟨_, _, rest, e⟩ := h
  have := congrArg List.length e
  rw [List.length_drop, List.length_append, List.length_append, encUnits_length, zeros_length] at this
  omega

theorem viKey_noUB (d : Bytes) (pos : Nat) : NoUB (viKey d pos) := by
  unfold viKey
  exact NoUB.bind (NoUB.throwIf _ _) (fun _ _ => NoUB.ok _)

theorem viValuePos_noUB (b : Nat) (k : WStr) : NoUB (viValuePos b k) := by
  unfold viValuePos
  exact NoUB.bind (NoUB.throwIf _ _) (fun _ _ => NoUB.ok _)

theorem viChildPos_noUB (b v : Nat) (k : WStr) : NoUB (viChildPos b v k) := by
  unfold viChildPos
  exact NoUB.bind (NoUB.throwIf _ _) (fun _ _ => NoUB.ok _)

theorem alignUp_mod4 (x : Nat) (h : x < 4294967296) : alignUp x 4 % 4 = 0 ∧ alignUp x 4 < 4294967296 ∧
    (4294967292 < x → alignUp x 4 = 0) := by
  have e := alignUpT_eq (w := 32) (k := 2) (x := x) (by decide) (by decide) h
  unfold alignUp
  rw [show (4 : Nat) = 2 ^ 2 from rfl, show (4294967296 : Nat) = 2 ^ 32 from rfl, e]
  have h4 := ceil4 x
  rw [show (2 : Nat) ^ 2 = 4 from rfl]
  rw [show (2 : Nat) ^ 32 = 4294967296 from rfl] at *
  split
  · omega
  · omega

theorem viValuePos_ok {d : Bytes} {pos vp : Nat} {k : WStr} (hd : d.length < 4294967296) (hk : KeyAt d pos k) (h : viValuePos pos k = .ok vp) :
    vp = pos + ceilTo (6 + 2 * (k.length + 1)) 4 := by
  have hf := hk.fits
  by_cases hc : pos + ceilTo (6 + 2 * (k.length + 1)) 4 < 4294967296
  · rw [viValuePos_eq hk.1 hc] at h
    injection h with h
    exact h.symm
  · exfalso
    have hc4 := ceil4 (6 + 2 * (k.length + 1))
    have hp := hk.1
    unfold viValuePos at h
    dsimp only at h
    have e1 : w32 k.length = k.length := Nat.mod_eq_of_lt (by omega)
    have e2 : w32 ((k.length + 1) * 2) = 2 * (k.length + 1) := by rw [w32, Nat.mod_eq_of_lt (by omega)]; omega
    have e3 : w32 (6 + pos + 2 * (k.length + 1)) = 6 + pos + 2 * (k.length + 1) := Nat.mod_eq_of_lt (by omega)
    rw [e1, e2, e3, (alignUp_mod4 _ (by omega)).2.2 (by omega), throwIf_bind_ok_iff] at h
    exact h.1 (.inr (.inl (by decide)))

theorem viChildPos_ok {b v p : Nat} {k : WStr} (h : viChildPos b v k = .ok p) (hv : v < 65536) : p % 4 = 0 ∧ p < 4294967296 := by
  unfold viChildPos at h
  dsimp only at h
  rw [throwIf_bind_ok_iff] at h
  injection h.2 with e
  rw [← e]
  have h1 := alignUp_mod4 (w32 (6 + b + w32 ((w32 k.length + 1) * 2))) (Nat.mod_lt _ (by decide))
  have h2 := alignUp_mod4 v (by omega)
  unfold w32 at *
  omega

theorem viWalk_only {σ : Type} {d : Bytes} {base len : Nat} {body : Nat → WStr → σ → Res σ} {B : UB → Prop} (_ : base < 4294967296)
    (hl : len < 65536) (hh : LongBlock d → B .hang)
    (hbody : ∀ pos k s, pos < 4294967296 → pos + 8 ≤ d.length → KeyAt d pos k → Only B (body pos k s)) :
    ∀ (n pos : Nat) (s : σ), len - sub32 pos base ≤ n → pos % 4 = 0 → pos < 4294967296 → Only B (viWalk d base len body pos s) := by
  intro n
  induction n with
  | zero =>
    intro pos s hn hp hp'
    rw [viWalk, if_neg (by omega)]
    exact Only.ok _
  | succ n ih =>
    intro pos s hn hp hp'
    rw [viWalk]
    by_cases hc : sub32 pos base < len
    · rw [if_pos hc]
      refine Only.bind (Only.of_noUB (NoUB.throwIf _ _)) (fun _ h1 => ?_)
      have h8 : ¬ d.length < pos + 8 := fun hx => by rw [throwIf_pos hx] at h1; cases h1
      rw [readU_ok (by omega), ok_bind]
      refine Only.bind (Only.of_noUB (NoUB.throwIf _ _)) (fun _ h2 => ?_)
      have h0 : ¬ rd 2 d pos = 0 := fun hx => by rw [throwIf_pos hx] at h2; cases h2
      refine Only.bind (Only.of_noUB (viKey_noUB d pos)) (fun k hk => ?_)
      have hka := viKey_keyAt hp hk
      refine Only.bind (hbody pos k s hp' (by omega) hka) (fun s' hs => ?_)
      have hl16 : rd 2 d pos < 65536 := rd_lt 2 d pos
      by_cases hlong : 65533 ≤ rd 2 d pos
      · by_cases hg : sub32 pos base < sub32 (w32 (pos + alignUp16 (rd 2 d pos) 4)) base
        · rw [alignUp16_wrap hlong hl16, Nat.add_zero, w32, Nat.mod_eq_of_lt hp'] at hg
          omega
        · rw [dif_neg hg]
          intro u hu
          have : u = .hang := by injection hu with hu; injection hu with hu; exact hu.symm
          rw [this]
          exact hh ⟨pos, k, hka, hlong⟩
      · have e := alignUp16_eq (x := rd 2 d pos) (by omega)
        have hc4 := ceil4 (rd 2 d pos)
        have hg : sub32 pos base < sub32 (w32 (pos + alignUp16 (rd 2 d pos) 4)) base := by
          rw [e]; unfold sub32 w32 at *; omega
        rw [dif_pos hg]
        refine ih _ _ (by omega) ?_ (Nat.mod_lt _ (by decide))
        rw [e]; unfold w32; omega
    · rw [if_neg hc]
      exact Only.ok _

theorem readU_only' {d : Bytes} {o n : Nat} {B : UB → Prop} (h : d.length < o + n → B .oobRead) : Only B (readU n d o) := by
  intro u hu
  unfold readU at hu
  split at hu
  · cases hu
  · have : u = .oobRead := by injection hu with hu; injection hu with hu; exact hu.symm
    rw [this]; exact h (by omega)

theorem readN_only' {d : Bytes} {o n : Nat} {B : UB → Prop} (h : d.length < o + n → B .oobRead) : Only B (readN d o n) := by
  intro u hu
  unfold readN at hu
  split at hu
  · cases hu
  · have : u = .oobRead := by injection hu with hu; injection hu with hu; exact hu.symm
    rw [this]; exact h (by omega)

theorem viString_only {d : Bytes} (hd : d.length < 4294967296) {pos : Nat} {k : WStr} (s : StrMap) (h8 : pos + 8 ≤ d.length) (hk : KeyAt d pos k) :
    Only (ViBad d) (viString d pos k s) := by
  unfold viString
  rw [readU_ok (by omega), ok_bind]
  refine Only.bind ?_ (fun v _ => Only.bind (Only.of_noUB (fromUcs2_noUB k)) (fun _ _ => Only.bind (Only.of_noUB (fromUcs2_noUB v)) (fun _ _ => Only.ok _)))
  unfold viValue
  by_cases h0 : rd 2 d (pos + 2) ≠ 0
  · rw [if_pos h0]
    refine Only.bind (Only.of_noUB (viValuePos_noUB _ _)) (fun vp hvp => ?_)
    have e := viValuePos_ok hd hk hvp
    refine Only.bind (Only.of_noUB (NoUB.throwIf _ _)) (fun _ _ => Only.bind (readN_only' (fun hx => ?_)) (fun _ _ => Only.ok _))
    exact .inr ⟨rfl, .inl ⟨pos, k, hk, by omega⟩⟩
  · rw [if_neg h0]; exact Only.ok _

theorem viTable_only {d : Bytes} (hd : d.length < 4294967296) {pos : Nat} {k : WStr} (s : LangMap) (hp : pos < 4294967296) (h8 : pos + 8 ≤ d.length)
    (_ : KeyAt d pos k) : Only (ViBad d) (viTable d pos k s) := by
  unfold viTable
  rw [readU_ok (by omega), ok_bind, readU_ok (by omega), ok_bind]
  refine Only.bind (Only.of_noUB (viChildPos_noUB _ _ _)) (fun p hp' => ?_)
  have h4 := viChildPos_ok hp' (rd_lt 2 d (pos + 2))
  refine Only.bind (viWalk_only hp (rd_lt 2 d pos) (fun h => .inl ⟨rfl, h⟩) (fun q k' s' _ hq hk' => viString_only hd s' hq hk') _ p [] (Nat.le_refl _) h4.1 h4.2)
    (fun _ _ => Only.bind (Only.of_noUB (fromUcs2_noUB k)) (fun _ _ => Only.ok _))

theorem viPairs_only {d : Bytes} {vp : Nat} {B : UB → Prop} : ∀ (n i : Nat) (m : TransMap), (d.length < vp + i + 4 * n → B .oobRead) →
    Only B (viPairs d vp n i m)
  | 0, _, _, _ => Only.ok _
  | n + 1, i, m, h => by
    unfold viPairs
    refine Only.bind (readU_only' (fun hx => h (by omega))) (fun _ _ => Only.bind (readU_only' (fun hx => h (by omega))) (fun _ _ => ?_))
    exact viPairs_only n (i + 4) _ (fun hx => h (by omega))

theorem viVar_only {d : Bytes} (hd : d.length < 4294967296) {pos : Nat} {k : WStr} (s : TransMap) (h8 : pos + 8 ≤ d.length) (hk : KeyAt d pos k) :
    Only (ViBad d) (viVar d pos k s) := by
  unfold viVar
  rw [readU_ok (by omega), ok_bind]
  by_cases hc : k = keyTrans ∧ rd 2 d (pos + 2) ≠ 0
  · rw [if_pos hc]
    refine Only.bind (Only.of_noUB (viValuePos_noUB _ _)) (fun vp hvp => ?_)
    have e := viValuePos_ok hd hk hvp
    obtain ⟨rfl, h0⟩ := hc
    refine Only.bind (Only.of_noUB (NoUB.throwIf _ _)) (fun _ _ => viPairs_only _ _ _ (fun hx => ?_))
    refine .inr ⟨rfl, .inr ⟨pos, hk, ?_⟩⟩
    rw [ceil4 (rd 2 d (pos + 2))]
    omega
  · rw [if_neg hc]; exact Only.ok _

theorem viChild_only {d : Bytes} (hd : d.length < 4294967296) {pos : Nat} {k : WStr} (s : LangMap × TransMap) (hp : pos < 4294967296)
    (h8 : pos + 8 ≤ d.length) (_ : KeyAt d pos k) : Only (ViBad d) (viChild d pos k s) := by
  unfold viChild
  rw [readU_ok (by omega), ok_bind, readU_ok (by omega), ok_bind]
  by_cases h1 : k = keyStrings
  · rw [if_pos h1]
    refine Only.bind (Only.of_noUB (viChildPos_noUB _ _ _)) (fun p hp' => ?_)
    have h4 := viChildPos_ok hp' (rd_lt 2 d (pos + 2))
    exact Only.bind (viWalk_only hp (rd_lt 2 d pos) (fun h => .inl ⟨rfl, h⟩) (fun q k' s' hq' hq hk' => viTable_only hd s' hq' hq hk') _ p _
      (Nat.le_refl _) h4.1 h4.2) (fun _ _ => Only.ok _)
  · rw [if_neg h1]
    by_cases h2 : k = keyVar
    · rw [if_pos h2]
      refine Only.bind (Only.of_noUB (viChildPos_noUB _ _ _)) (fun p hp' => ?_)
      have h4 := viChildPos_ok hp' (rd_lt 2 d (pos + 2))
      exact Only.bind (viWalk_only hp (rd_lt 2 d pos) (fun h => .inl ⟨rfl, h⟩) (fun q k' s' hq' hq hk' => viVar_only hd s' hq hk') _ p _
        (Nat.le_refl _) h4.1 h4.2) (fun _ _ => Only.ok _)
    · rw [if_neg h2]; exact Only.of_noUB (NoUB.throwE _)

theorem viFixed_noUB (d : Bytes) (k : WStr) (v : Nat) : NoUB (viFixed d k v) := by
  unfold viFixed
  by_cases h0 : v ≠ 0
  · rw [if_pos h0]
    refine NoUB.bind (viValuePos_noUB _ _) (fun vp _ => NoUB.bind (NoUB.throwIf _ _) (fun _ h => ?_))
    have : ¬ d.length < vp + 52 := fun hx => by rw [throwIf_pos hx] at h; cases h
    rw [readN_ok (by omega), ok_bind]
    exact NoUB.bind (NoUB.throwIf _ _) (fun _ _ => NoUB.ok _)
  · rw [if_neg h0]; exact NoUB.ok _

theorem viRead_only (d : Bytes) (hd : d.length < 4294967296) (ss : LangMap) (ts : TransMap) : Only (ViBad d) (viRead d ss ts) := by
  unfold viRead
  refine Only.bind (Only.of_noUB (NoUB.throwIf _ _)) (fun _ h => ?_)
  have : ¬ d.length < 8 := fun hx => by rw [throwIf_pos hx] at h; cases h
  refine Only.bind (Only.of_noUB (viKey_noUB d 0)) (fun k hk => Only.bind (Only.of_noUB (NoUB.throwIf _ _)) (fun _ _ => ?_))
  rw [readU_ok (by omega), ok_bind, readU_ok (by omega), ok_bind]
  refine Only.bind (Only.of_noUB (viFixed_noUB d _ _)) (fun f _ => Only.bind (Only.of_noUB (viChildPos_noUB _ _ _)) (fun p hp' => ?_))
  have h4 := viChildPos_ok hp' (rd_lt 2 d 2)
  exact Only.bind (viWalk_only (by decide) (rd_lt 2 d 0) (fun h => .inl ⟨rfl, h⟩) (fun q k' s' hq' hq hk' => viChild_only hd s' hq' hq hk') _ p _
    (Nat.le_refl _) h4.1 h4.2) (fun _ _ => Only.ok _)

/-! ### C63 -/

/-- C63 (partial): for every version resource of a tree, reading ends and stays inside the data, with two exceptions. If it loops forever, some
    block in the data claims a length of 0xFFFD or more. If it reads outside the data, some block claims a value
    that does not fit if `ValueLength` counts words (strings) or is rounded up to whole pairs (Translation).
    Missing: safety for these blocks; it does not hold, see `C63_hang` and `C63_over_read`. -/
theorem C63_reading_safe_partial (r : ResDir) (lang : Nat) (ss : LangMap) (ts : TransMap) (u : UB)
    (hd : ∀ cp d, r.getData typeVersion (.id 1) lang = .ok (cp, d) → d.length < 2 ^ 32)
    (h : r.versionInfo lang ss ts = .error (.ub u)) :
    ∃ cp d, r.getData typeVersion (.id 1) lang = .ok (cp, d) ∧ ((u = .hang ∧ LongBlock d) ∨ (u = .oobRead ∧ (LongValue d ∨ LongPairs d))) := by
  unfold ResDir.versionInfo at h
  cases hg : r.getData typeVersion (.id 1) lang with
  | error e =>
    rw [hg] at h
    have he : (Except.error e : Res (FileVer × LangMap × TransMap)) = .error (.ub u) := h
    injection he with he
    exact absurd (by rw [hg, he]) (getData_noUB r typeVersion (.id 1) lang u)
  | ok x =>
    obtain ⟨cp, d⟩ := x
    rw [hg, ok_bind] at h
    exact ⟨cp, d, rfl, viRead_only d (hd cp d hg) ss ts u h⟩

/-- C63 (partial), the same for an index into the languages. -/
theorem C63_reading_at_safe_partial (r : ResDir) (index : Nat) (ss : LangMap) (ts : TransMap) (u : UB)
    (hd : ∀ cp d, r.getDataAt typeVersion (.id 1) index = .ok (cp, d) → d.length < 2 ^ 32)
    (h : r.versionInfoAt index ss ts = .error (.ub u)) :
    ∃ cp d, r.getDataAt typeVersion (.id 1) index = .ok (cp, d) ∧ ((u = .hang ∧ LongBlock d) ∨ (u = .oobRead ∧ (LongValue d ∨ LongPairs d))) := by
  unfold ResDir.versionInfoAt at h
  cases hg : r.getDataAt typeVersion (.id 1) index with
  | error e =>
    rw [hg] at h
    have he : (Except.error e : Res (FileVer × LangMap × TransMap)) = .error (.ub u) := h
    injection he with he
    exact absurd (by rw [hg, he]) (getDataAt_noUB r typeVersion (.id 1) index u)
  | ok x =>
    obtain ⟨cp, d⟩ := x
    rw [hg, ok_bind] at h
    exact ⟨cp, d, rfl, viRead_only d (hd cp d hg) ss ts u h⟩

/-- The outcome is the undefined behaviour `u`. -/
def isUb {α : Type} (u : UB) : Res α → Bool
  | .error (.ub u') => decide (u' = u)
  | _ => false

theorem isUb_eq {α : Type} {u : UB} {x : Res α} (h : isUb u x = true) : x = ubE u := by
  cases x with
  | ok a => cases h
  | error e =>
    cases e with
    | exn e => cases h
    | ub u' => rw [show u' = u from of_decide_eq_true h]; rfl

/-- A root block without fixed information that claims `n` bytes. -/
def demoRoot (n : Nat) : Bytes := viHdr n 0 0 ++ encUnits keyRoot ++ zeros 4

/-- C63 does not hold in full: a block VarFileInfo of claimed length 0xFFFD with an empty block of the same claimed length makes
    `get_version_info` loop forever. -/
theorem C63_hang : viRead (demoRoot 80 ++ (viHdr 0xFFFD 0 1 ++ encUnits keyVar ++ zeros 4) ++ (viHdr 0xFFFD 0 0 ++ zeros 2)) [] [] = ubE .hang := by
  exact isUb_eq (by decide +kernel)

/-- C63 does not hold in full: a string "a" with a value of 8 words, of which only 8 bytes are there: the other 8 bytes are read behind
    the end of the data. -/
theorem C63_over_read : viRead (demoRoot 104 ++ (viHdr 64 0 1 ++ encUnits keyStrings ++ zeros 2) ++ (viHdr 28 0 1 ++ zeros 2) ++
    (viHdr 20 8 1 ++ encUnits [97] ++ zeros 4 ++ [1, 0, 2, 0, 3, 0, 4, 0])) [] [] = ubE .oobRead := by
  exact isUb_eq (by decide +kernel)

/-- C63 does not hold in full: Translation with a value of one byte, the last byte of the data. -/
theorem C63_over_read_translation : viRead (demoRoot 106 ++ (viHdr 65 0 1 ++ encUnits keyVar ++ zeros 4) ++
    (viHdr 33 1 0 ++ encUnits keyTrans ++ zeros 4 ++ [7])) [] [] = ubE .oobRead := by
  exact isUb_eq (by decide +kernel)

end PE
