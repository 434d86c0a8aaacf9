/-
C41: version information is read back as it was written. C65: the writer stays inside its buffer.
-/
import Verif.Lemmas.VersionRead
import Verif.Props.ResourceManager

namespace PE

/-- All strings can be encoded in UCS-2. -/
def LangMap.Encodable (ss : LangMap) : Prop := ∀ t ∈ ss, UcsStr t.1 ∧ ∀ x ∈ t.2, UcsStr x.1 ∧ UcsStr x.2

theorem viWrite_ok {f : FileVer} {ss : LangMap} {ts : TransMap} (h : VerOk f ss ts) :
    viWrite f ss ts = .ok (viRootB f (verSize ss ts) ++ viStringsB ss ++ viTransB ts) := by
  have hs := h.size
  rw [(viWrite_eq f ss ts (by omega)).1 (fun t ht => ⟨(h.strings t ht).1.1, fun x hx => ⟨((h.strings t ht).2 x hx).1.1, ((h.strings t ht).2 x hx).2.1⟩⟩),
    h.bytes, Nat.sub_self]
  refine congrArg Except.ok ?_
  show _ ++ [] = _
  rw [List.append_nil]

/-- C41: version information (strings without zeros, of up to 64 KiB together) that was set for a language is read back by
    `get_version_info_by_lang`: the fixed information, all the string tables and all the translations. -/
theorem C41_round_trip (r r' : ResDir) (f : FileVer) (ss : LangMap) (ts : TransMap) (lang cp stamp : Nat) (h : VerOk f ss ts)
    (hs : r.setVersionInfo f ss ts lang cp stamp = (r', .ok ()))
    (hc : ∀ a, r.sub [typeVersion, .id 1] = some a → (a.es.map ResEntry.key).count (.id lang) ≤ 1) :
    r'.versionInfo lang [] [] = .ok (f, ss, ts) := by
  unfold ResDir.setVersionInfo at hs
  rw [viWrite_ok h] at hs
  dsimp only at hs
  have hg := C33_add_then_get r r' _ typeVersion (.id 1) lang cp stamp hs hc
  unfold ResDir.versionInfo
  rw [hg, ok_bind]
  exact viRead_bytes h

/-- C41: setting version information fails only if some node on the path to it is not a directory, and then changes nothing. -/
theorem C41_set_succeeds (r : ResDir) (f : FileVer) (ss : LangMap) (ts : TransMap) (lang cp stamp : Nat) (h : VerOk f ss ts) :
    (¬ r.Blocked typeVersion (.id 1) → ∃ r', r.setVersionInfo f ss ts lang cp stamp = (r', .ok ())) ∧
    (r.Blocked typeVersion (.id 1) → r.setVersionInfo f ss ts lang cp stamp = (r, throwE .resourceDirectoryEntryError)) := by
  unfold ResDir.setVersionInfo
  rw [viWrite_ok h]
  dsimp only
  refine ⟨fun hb => ⟨_, Prod.ext rfl ((C33_add_throws r _ _ _ lang cp stamp).2 hb)⟩, fun hb => (C33_add_throws r _ _ _ lang cp stamp).1 hb⟩

/-- C41: the data in the tree is exactly as long as its parts need, and its first word is its length. -/
theorem C41_size (r r' : ResDir) (f : FileVer) (ss : LangMap) (ts : TransMap) (lang cp stamp : Nat) (h : VerOk f ss ts)
    (hs : r.setVersionInfo f ss ts lang cp stamp = (r', .ok ()))
    (hc : ∀ a, r.sub [typeVersion, .id 1] = some a → (a.es.map ResEntry.key).count (.id lang) ≤ 1) :
    ∃ d, r'.getData typeVersion (.id 1) lang = .ok (cp, d) ∧ d.length = verSize ss ts ∧ rd 2 d 0 = d.length := by
  unfold ResDir.setVersionInfo at hs
  rw [viWrite_ok h] at hs
  dsimp only at hs
  have hg := C33_add_then_get r r' _ typeVersion (.id 1) lang cp stamp hs hc
  have hl : (viRootB f (verSize ss ts) ++ viStringsB ss ++ viTransB ts).length = verSize ss ts := by
    rw [List.length_append, List.length_append, viRootB_length, h.bytes]
  refine ⟨_, hg, hl, ?_⟩
  rw [hl]
  have e : viRootB f (verSize ss ts) ++ viStringsB ss ++ viTransB ts = [] ++ (viHdr (verSize ss ts) 52 0 ++
      ((encUnits keyRoot ++ zeros 2) ++ zeros 2 ++ viFixedBytes f ++ viStringsB ss ++ viTransB ts)) := by
    unfold viRootB; simp only [List.append_assoc, List.nil_append]
  rw [e]
  have := rd0_hdr [] ((encUnits keyRoot ++ zeros 2) ++ zeros 2 ++ viFixedBytes f ++ viStringsB ss ++ viTransB ts) (verSize ss ts) 52 0
  rw [List.length_nil] at this
  rw [this, Nat.mod_eq_of_lt h.size]

/-- C41: no other resource changes, whatever is set. -/
theorem C41_others_unchanged (r : ResDir) (f : FileVer) (ss : LangMap) (ts : TransMap) (lang cp stamp : Nat) (t n l : ResKey)
    (hne : (t, n, l) ≠ (typeVersion, .id 1, .id lang)) : (r.setVersionInfo f ss ts lang cp stamp).1.entry3 t n l = r.entry3 t n l := by
  unfold ResDir.setVersionInfo
  cases viWrite f ss ts with
  | error e => rfl
  | ok d => exact C34_add_keeps r d _ _ lang cp stamp t n l hne

/-- C65: as long as the size fits into 32 bits, the writer stays inside its buffer, and the buffer has the size the parts need; it refuses
    exactly the strings that UCS-2 cannot express, and then no resource changes. -/
theorem C65_writer_bounds (r : ResDir) (f : FileVer) (ss : LangMap) (ts : TransMap) (lang cp stamp : Nat) (h : verSize ss ts < 2 ^ 32) :
    (ss.Encodable → ∃ d, d.length = verSize ss ts ∧
      r.setVersionInfo f ss ts lang cp stamp = r.addResource d typeVersion (.id 1) lang cp stamp) ∧
    (¬ ss.Encodable → r.setVersionInfo f ss ts lang cp stamp = (r, throwE .encodingConvertionError)) := by
  have hw := viWrite_eq f ss ts h
  unfold ResDir.setVersionInfo
  constructor
  · intro he
    rw [hw.1 he]
    refine ⟨_, ?_, rfl⟩
    simp only [List.length_append, viRootB_length, zeros_length]
    have h1 := viStringsB_le ss
    have h2 := viTransB_length ts
    unfold verSize
    omega
  · intro he
    rw [hw.2 he]
    rfl

/-- C65: `remove_version_info` says whether there was information for the language, removes it, and leaves all other resources as they are. -/
theorem C65_remove (r : ResDir) (lang : Nat) (hu : r.Unique) (hb : ¬ r.Blocked typeVersion (.id 1)) :
    (r.removeVersionInfo lang).2 = .ok (r.entry3 typeVersion (.id 1) (.id lang)).isSome ∧
    (∀ t n l, (r.removeVersionInfo lang).1.entry3 t n l =
      if t = typeVersion ∧ n = .id 1 ∧ l = .id lang then none else r.entry3 t n l) :=
  have h := C34_remove_language r typeVersion (.id 1) lang hu hb
  ⟨h.1, h.2.1⟩

/-! ### Too large, or zeros in names -/

theorem viWalk_done {σ : Type} {d : Bytes} {base len : Nat} {body : Nat → WStr → σ → Res σ} {pos : Nat} {s : σ} (h : ¬ sub32 pos base < len) :
    viWalk d base len body pos s = .ok s := by
  rw [viWalk, if_neg h]

theorem viRead_root {f : FileVer} (hf : f.Ok) (n : Nat) (rest : Bytes) (h : n % 65536 ≤ 92) :
    viRead (viRootB f (w16 n) ++ rest) [] [] = .ok (f, [], []) := by
  have hl := viRootB_length f (w16 n)
  have e : viRootB f (w16 n) ++ rest = [] ++ (viHdr (w16 n) 52 0 ++ ((encUnits keyRoot ++ zeros 2) ++ (zeros 2 ++ viFixedBytes f ++ rest))) := by
    unfold viRootB; simp only [List.append_assoc, List.nil_append]
  have hk : viKey (viRootB f (w16 n) ++ rest) 0 = .ok keyRoot := by
    have := viKey_at (pre := []) (rest := zeros 2 ++ viFixedBytes f ++ rest) (viHdr_length (w16 n) 52 0) keyRoot_ok
    simp only [List.length_nil, List.nil_append, List.append_assoc] at this
    rw [e]
    simp only [List.nil_append, List.append_assoc]
    exact this
  have h0 : rd 2 (viRootB f (w16 n) ++ rest) 0 = w16 n % 65536 := by
    rw [e]; have := rd0_hdr [] ((encUnits keyRoot ++ zeros 2) ++ (zeros 2 ++ viFixedBytes f ++ rest)) (w16 n) 52 0
    simpa using this
  have h2 : rd 2 (viRootB f (w16 n) ++ rest) 2 = 52 := by
    rw [e]; have := rd2_hdr [] ((encUnits keyRoot ++ zeros 2) ++ (zeros 2 ++ viFixedBytes f ++ rest)) (w16 n) 52 0
    simpa using this
  have hlen : (viRootB f (w16 n) ++ rest).length = 92 + rest.length := by rw [List.length_append, hl]
  unfold viRead
  rw [throwIf_neg (by omega), ok_bind, hk, ok_bind, throwIf_neg (by simp), ok_bind, readU_ok (by omega), ok_bind, readU_ok (by omega), ok_bind,
    h0, h2, viFixed_at hf, ok_bind, viChildPos_eq (by decide) (by decide) (by decide), ok_bind, viWalk_done, ok_bind]
  have : w16 n % 65536 = n % 65536 := by unfold w16; omega
  rw [this]
  have : sub32 (0 + ceilTo (6 + 2 * (keyRoot.length + 1)) 4 + ceilTo 52 4) 0 = 92 := by decide
  omega

/-- C41, without the size limit it does not hold: of information whose size is up to 92 above a multiple of 64 KiB, `set_version_info`
    reports success, and only the fixed part is read back. -/
theorem C41_too_large_is_lost (r r' : ResDir) (f : FileVer) (ss : LangMap) (ts : TransMap) (lang cp stamp : Nat) (hf : f.Ok) (he : ss.Encodable)
    (h : verSize ss ts < 2 ^ 32) (hm : verSize ss ts % 65536 ≤ 92)
    (hs : r.setVersionInfo f ss ts lang cp stamp = (r', .ok ()))
    (hc : ∀ a, r.sub [typeVersion, .id 1] = some a → (a.es.map ResEntry.key).count (.id lang) ≤ 1) :
    r'.versionInfo lang [] [] = .ok (f, [], []) := by
  unfold ResDir.setVersionInfo at hs
  rw [(viWrite_eq f ss ts h).1 he] at hs
  dsimp only at hs
  have hg := C33_add_then_get r r' _ typeVersion (.id 1) lang cp stamp hs hc
  unfold ResDir.versionInfo
  rw [hg, ok_bind]
  have e : viRootB f (verSize ss ts) = viRootB f (w16 (verSize ss ts)) := by
    unfold viRootB viHdr
    have : leBytes 2 (verSize ss ts) = leBytes 2 (w16 (verSize ss ts)) := (leBytes_mod 2 (verSize ss ts)).symm
    rw [this]
  dsimp only
  rw [e, List.append_assoc, List.append_assoc]
  exact viRead_root hf _ _ hm

/-- C41, without the condition on zeros it does not hold: the name "a\0b" is read back as "a". -/
theorem C41_zero_in_name : ∃ d, viWrite {} [([48], [([97, 0, 98], [99])])] [] = .ok d ∧
    viRead d [] [] = .ok ({}, [([48], [([97], [])])], []) := by
  obtain ⟨d, h1, h2⟩ := exists_of_okAnd (x := viWrite {} [([48], [([97, 0, 98], [99])])] [])
    (f := fun d => okAnd (viRead d [] []) (fun x : FileVer × LangMap × TransMap => decide (x.1 = {} ∧ x.2.1 = [([48], [([97], [])])] ∧ x.2.2 = []))) (by decide +kernel)
  obtain ⟨x, h3, h4⟩ := exists_of_okAnd h2
  obtain ⟨a, b, c⟩ := x
  obtain ⟨h5, h6, h7⟩ := of_decide_eq_true h4
  exact ⟨d, h1, by rw [h3, ← h5, ← h6, ← h7]⟩

/-! ### The hypotheses can be met -/

def demoVer : FileVer := { verMS := 0x00010002, verLS := 0x00030004, prodMS := 5, prodLS := 6, flags := 1, os := 0x40004, type := 1, subtype := 0, dateMS := 7, dateLS := 8 }
def demoStrings : LangMap :=
  [([48, 52, 48, 57, 48, 52, 98, 48], [([65], [66, 67]), ([65, 66], [])]), ([48, 52, 49, 57, 48, 52, 98, 48], [([67], [0x416, 0x417, 0x418])])]
def demoTrans : TransMap := [(0x409, 0x4b0), (0x419, 0x4b0), (0x419, 0x4e4)]

theorem demoVer_ok : VerOk demoVer demoStrings demoTrans := by
  refine ⟨by unfold FileVer.Ok; decide, ?_, ?_, ?_, by decide⟩
  · unfold LangMap.Ok KeyOk ValueOk UcsStr; decide
  · unfold LangMap.Sorted MapSorted; decide
  · unfold TransMap.Ok; decide

example : ∃ r', demoRes.setVersionInfo demoVer demoStrings demoTrans 1033 0 5 = (r', .ok ()) :=
  (C41_set_succeeds demoRes demoVer demoStrings demoTrans 1033 0 5 demoVer_ok).1 (by
    rintro (⟨e, he, _⟩ | ⟨dd, e, hd, _⟩)
    · revert he; simp [ResDir.first, demoRes, typeVersion, ResEntry.key]
    · revert hd; simp [ResDir.sub, demoRes, typeVersion, ResEntry.key])

/-- One value of 32695 characters: 65536 bytes in all. -/
example : verSize [([], [([], List.replicate 32695 97)])] [] = 65536 ∧ LangMap.Encodable [([], [([], List.replicate 32695 97)])] := by
  have hl : (List.replicate 32695 97 : WStr).length = 32695 := List.length_replicate
  have hc : ∀ c ∈ (List.replicate 32695 97 : WStr), c = 97 := fun c h => (List.mem_replicate.mp h).2
  generalize (List.replicate 32695 97 : WStr) = v at hl hc
  constructor
  · simp [verSize, verTableSize, verStrSize, ceilTo, hl]
  · intro t ht
    rw [List.mem_singleton] at ht
    subst ht
    refine ⟨(fun c h => by cases h), fun x hx => ?_⟩
    rw [List.mem_singleton] at hx
    subst hx
    refine ⟨(fun c h => by cases h), fun c h => ?_⟩
    rw [hc c h]; decide

end PE
