/-
C41: the bytes of the version information.
-/
import Verif.Spec.VersionFormat
import Verif.Props.VersionInfo
import Verif.Props.VersionEdit

namespace PE

open VerFmt in
theorem fmt_word (n : Nat) : word n = leBytes 2 n := rfl

theorem fmt_dword (n : Nat) : VerFmt.dword n = leBytes 4 n := by
  unfold VerFmt.dword VerFmt.word
  simp [leBytes, Nat.div_div_eq_div_mul]

theorem fmt_units (w : WStr) : VerFmt.units w = encUnits w := rfl

theorem fmt_root : VerFmt.text "VS_VERSION_INFO" = keyRoot := by decide
theorem fmt_strings : VerFmt.text "StringFileInfo" = keyStrings := by decide
theorem fmt_var : VerFmt.text "VarFileInfo" = keyVar := by decide
theorem fmt_trans : VerFmt.text "Translation" = keyTrans := by decide

theorem fmt_pad (b : Bytes) (h : b.length % 2 = 0) : VerFmt.pad b = b ++ viPadB b.length := by
  unfold VerFmt.pad viPadB
  split
  · rw [show (4 - b.length % 4) % 4 = 2 by omega]; rfl
  · rw [show (4 - b.length % 4) % 4 = 0 by omega]; rfl

theorem fmt_head (len vlen type : Nat) (key : WStr) : VerFmt.head len vlen type key = viHdr len vlen type ++ viKeyB key := by
  unfold VerFmt.head
  have hl : (VerFmt.word len ++ VerFmt.word vlen ++ VerFmt.word type ++ VerFmt.units key ++ [0, 0]).length = 6 + 2 * (key.length + 1) := by
    rw [fmt_units]
    simp only [List.length_append, encUnits_length, VerFmt.word, List.length_cons, List.length_nil]
    omega
  rw [fmt_pad _ (by omega), hl, fmt_units, fmt_word, fmt_word, fmt_word]
  unfold viHdr viKeyB
  rw [show ([0, 0] : Bytes) = zeros 2 from rfl]
  simp only [List.append_assoc]

theorem fmt_block (vlen type : Nat) (key : WStr) (body : Bytes) :
    VerFmt.block vlen type key body = viHdr (6 + (viKeyB key ++ body).length) vlen type ++ (viKeyB key ++ body) := by
  unfold VerFmt.block
  rw [fmt_head, fmt_head, List.append_assoc, List.length_append, viHdr_length, List.length_append, Nat.add_assoc]

theorem fmt_string (x : WStr × WStr) (h : verStrSize x < 65536) : VerFmt.string x = viStrB x := by
  unfold verStrSize at h
  rw [ceil4, ceil4] at h
  unfold VerFmt.string
  have hk := viKeyB_length x.1
  have hp := viPadB_length (6 + 2 * (x.1.length + 1))
  have hk4 : (6 + (viKeyB x.1).length) = ceilTo (6 + 2 * (x.1.length + 1)) 4 := by
    rw [ceil4, hk]
    by_cases hm : (6 + 2 * (x.1.length + 1)) % 4 = 0
    · rw [hp.2.1 hm]; omega
    · rw [hp.2.2 hm]; omega
  have hvl : (VerFmt.units x.2 ++ [0, 0]).length = (x.2.length + 1) * 2 := by
    rw [fmt_units, List.length_append, encUnits_length]
    simp; omega
  have hw1 : w16 (x.2.length + 1) = x.2.length + 1 := by unfold w16; exact Nat.mod_eq_of_lt (by omega)
  rw [fmt_block, fmt_pad]
  · unfold viStrB
    rw [hw1, List.length_append, hvl, ← Nat.add_assoc, hk4]
    rw [show w16 (ceilTo (6 + 2 * (x.1.length + 1)) 4 + (x.2.length + 1) * 2) = ceilTo (6 + 2 * (x.1.length + 1)) 4 + (x.2.length + 1) * 2 by
      unfold w16; rw [ceil4]; exact Nat.mod_eq_of_lt (by omega)]
    rw [List.take_of_length_le (by rw [List.length_append, encUnits_length, zeros_length]; omega)]
    have : viPadB (viHdr (ceilTo (6 + 2 * (x.1.length + 1)) 4 + (x.2.length + 1) * 2) (x.2.length + 1) 1 ++
        (viKeyB x.1 ++ (VerFmt.units x.2 ++ [0, 0]))).length = viPadB ((x.2.length + 1) * 2) := by
      rw [List.length_append, viHdr_length, List.length_append, hvl, ← Nat.add_assoc, hk4, ceil4]
      unfold viPadB
      rw [show ((6 + 2 * (x.1.length + 1) + 3) / 4 * 4 + (x.2.length + 1) * 2) % 4 = (x.2.length + 1) * 2 % 4 by omega]
    rw [this]
    rw [fmt_units, show ([0, 0] : Bytes) = zeros 2 from rfl]
    simp only [List.append_assoc]
  · rw [List.length_append, viHdr_length, List.length_append, hvl, ← Nat.add_assoc, hk4, ceil4]; omega

theorem fmt_table (x : WStr × StrMap) (h : ∀ y ∈ x.2, verStrSize y < 65536) : VerFmt.table x = viTableB x := by
  unfold VerFmt.table viTableB
  rw [fmt_block]
  have : x.2.flatMap VerFmt.string = x.2.flatMap viStrB := by
    rw [List.flatMap_def, List.flatMap_def]
    exact congrArg _ (List.map_congr_left fun y hy => fmt_string y (h y hy))
  rw [this]

theorem le_sum_of_mem {l : List Nat} {x : Nat} (h : x ∈ l) : x ≤ l.sum := by
  induction l with
  | nil => cases h
  | cons a l ih =>
    rw [List.sum_cons]
    rcases List.mem_cons.mp h with h | h
    · omega
    · have := ih h; omega

theorem fmt_all (f : FileVer) (ss : LangMap) (ts : TransMap) (h : VerOk f ss ts) :
    VerFmt.version f ss ts = viRootB f (verSize ss ts) ++ viStringsB ss ++ viTransB ts := by
  have hsz := h.size
  have hfix : VerFmt.fixed f = viFixedBytes f := by
    unfold VerFmt.fixed viFixedBytes
    simp only [List.flatMap_cons, List.flatMap_nil, fmt_dword, List.append_nil, List.append_assoc]
  have hstr : VerFmt.strings ss = viStringsB ss := by
    unfold VerFmt.strings viStringsB
    split
    · rfl
    · rename_i hne
      rw [fmt_strings, fmt_block]
      have : ss.flatMap VerFmt.table = ss.flatMap viTableB := by
        rw [List.flatMap_def, List.flatMap_def]
        refine congrArg _ (List.map_congr_left fun t ht => fmt_table t fun y hy => ?_)
        unfold verSize at hsz
        rw [if_neg hne] at hsz
        have h1 := le_sum_of_mem (List.mem_map_of_mem (f := verTableSize) ht)
        have h2 := le_sum_of_mem (List.mem_map_of_mem (f := verStrSize) hy)
        unfold verTableSize at h1
        unfold verTableSize at hsz
        omega
      rw [this, show viKeyB keyStrings = encUnits keyStrings ++ zeros 2 from by decide]
  have hvar : VerFmt.vars ts = viTransB ts := by
    unfold VerFmt.vars viTransB
    split
    · rfl
    · unfold VerFmt.translation viTransB1
      rw [fmt_var, fmt_trans, fmt_block, fmt_block, show viKeyB keyTrans = encUnits keyTrans ++ zeros 4 from by decide,
        show viKeyB keyVar = encUnits keyVar ++ zeros 4 from by decide]
      rfl
  unfold VerFmt.version
  rw [hfix, hstr, hvar, fmt_root, fmt_block]
  have hb := h.bytes
  have hk : viKeyB keyRoot = encUnits keyRoot ++ zeros 2 ++ zeros 2 := by decide
  have hl : 6 + (viKeyB keyRoot ++ (viFixedBytes f ++ viStringsB ss ++ viTransB ts)).length = verSize ss ts := by
    have := congrArg List.length hk
    rw [hb]
    simp only [List.length_append] at this ⊢
    rw [show (viKeyB keyRoot).length = 34 from rfl, show (viFixedBytes f).length = 52 from rfl]
    omega
  rw [hl, hk]
  unfold viRootB
  simp only [List.append_assoc]

/-- C41: what `set_version_info` stores is the VS_VERSIONINFO resource of the Windows format, with nothing before or behind it: every block with
    its length, the length of its value, its type, its key in UTF-16, its padding, its value and its children. -/
theorem C41_format (r r' : ResDir) (f : FileVer) (ss : LangMap) (ts : TransMap) (lang cp stamp : Nat) (h : VerOk f ss ts)
    (hs : r.setVersionInfo f ss ts lang cp stamp = (r', .ok ()))
    (hc : ∀ a, r.sub [typeVersion, .id 1] = some a → (a.es.map ResEntry.key).count (.id lang) ≤ 1) :
    r'.getData (.id 16) (.id 1) lang = .ok (cp, VerFmt.version f ss ts) := by
  unfold ResDir.setVersionInfo at hs
  rw [viWrite_ok h] at hs
  dsimp only at hs
  rw [fmt_all f ss ts h]
  exact C33_add_then_get r r' _ typeVersion (.id 1) lang cp stamp hs hc

/-- C41: `get_version_info` understands every resource of that format (whoever wrote it). -/
theorem C41_reads_format (r : ResDir) (f : FileVer) (ss : LangMap) (ts : TransMap) (lang cp : Nat) (h : VerOk f ss ts)
    (hd : r.getData (.id 16) (.id 1) lang = .ok (cp, VerFmt.version f ss ts)) : r.versionInfo lang [] [] = .ok (f, ss, ts) := by
  unfold ResDir.versionInfo
  rw [fmt_all f ss ts h] at hd
  rw [show typeVersion = .id 16 from rfl, hd, ok_bind]
  exact viRead_bytes h

/-- The format of the demo version information starts with the length 0x1a4, the length of the value, the type and "VS". -/
example : (VerFmt.version demoVer demoStrings demoTrans).take 10 =
    [UInt8.ofNat (verSize demoStrings demoTrans), UInt8.ofNat (verSize demoStrings demoTrans / 256), 52, 0, 0, 0, 0x56, 0, 0x53, 0] := by
  decide +kernel

example : ∃ r', demoRes.setVersionInfo demoVer demoStrings demoTrans 1033 0 5 = (r', .ok ()) ∧
    r'.getData (.id 16) (.id 1) 1033 = .ok (0, VerFmt.version demoVer demoStrings demoTrans) := by
  obtain ⟨r', h⟩ := (C41_set_succeeds demoRes demoVer demoStrings demoTrans 1033 0 5 demoVer_ok).1 (by
    rintro (⟨e, he, _⟩ | ⟨dd, e, hd, _⟩)
    · revert he; simp [ResDir.first, demoRes, typeVersion, ResEntry.key]
    · revert hd; simp [ResDir.sub, demoRes, typeVersion, ResEntry.key])
  exact ⟨r', h, C41_format _ _ _ _ _ _ _ _ demoVer_ok h (by
    intro a ha
    revert ha
    simp [ResDir.sub, demoRes, typeVersion, ResEntry.key])⟩

/-- C64: the text of a translation is four lower case digits for the language and four for the code page. -/
theorem C64_text (x : Nat × Nat) (h1 : x.1 < 65536) (h2 : x.2 < 65536) :
    transName x = [x.1 / 4096, x.1 / 256 % 16, x.1 / 16 % 16, x.1 % 16, x.2 / 4096, x.2 / 256 % 16, x.2 / 16 % 16, x.2 % 16].map
      fun d => (VerFmt.text "0123456789abcdef").getD d 0 := by
  have hd : ∀ d, d < 16 → hexDigit d = (VerFmt.text "0123456789abcdef").getD d 0 := by decide
  unfold transName hex4
  simp only [List.map_cons, List.map_nil, List.cons_append, List.nil_append]
  rw [← hd _ (by omega), ← hd _ (by omega), ← hd _ (by omega), ← hd _ (by omega), ← hd _ (by omega), ← hd _ (by omega), ← hd _ (by omega),
    ← hd _ (by omega), Nat.mod_eq_of_lt (a := x.1 / 4096) (by omega), Nat.mod_eq_of_lt (a := x.2 / 4096) (by omega)]

example : transName (0x409, 0x4b0) = VerFmt.text "040904b0" := by decide

/-- C64: the table that the editor chooses or creates when nothing is named is "041904b0" (language 0x419, code page 0x4b0). -/
theorem C64_default_language : defaultLang = VerFmt.text "041904b0" ∧ transName (0x419, 0x4b0) = defaultLang ∧
    transIds defaultLang = (0x419, 0x4b0) := by
  decide

end PE
