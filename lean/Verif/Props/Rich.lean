/-
C48: reading the Rich header.
-/
import Verif.Spec.Rich
import Verif.Lemmas.Basic

namespace PE

theorem encWords_length (ws : List Nat) : (encWords ws).length = 4 * ws.length := by
  unfold encWords
  induction ws with
  | nil => rfl
  | cons w ws ih => simp [ih]; omega

theorem encWords_cons (w : Nat) (ws : List Nat) : encWords (w :: ws) = leBytes 4 w ++ encWords ws := rfl
theorem encWords_append (a b : List Nat) : encWords (a ++ b) = encWords a ++ encWords b := by
  simp [encWords]

/-- A search loop finds the first match. -/
theorem findWord_first {b : Bytes} {len key id n : Nat} (hlen : n < len) (hb : n + 4 ≤ b.length)
    (hn : rd 4 b n ^^^ key = id) : ∀ k pos, pos + k = n → (∀ i, pos ≤ i → i < n → rd 4 b i ^^^ key ≠ id) →
    findWord b len key id pos = .ok (some n)
  | 0, pos, hk, _ => by
    have : pos = n := by omega
    subst this
    rw [findWord, if_pos hlen, readU_ok hb]
    show (if _ then _ else _) = _
    rw [if_pos hn]
  | k + 1, pos, hk, hi => by
    rw [findWord, if_pos (by omega), readU_ok (by omega)]
    show (if _ then _ else _) = _
    rw [if_neg (hi pos (Nat.le_refl _) (by omega))]
    exact findWord_first hlen hb hn k (pos + 1) (by omega) (fun i h1 h2 => hi i (by omega) h2)

theorem rd_at {pre rest : Bytes} {w v off : Nat} (h : off = pre.length) :
    rd w (pre ++ (leBytes w v ++ rest)) off = v % 256 ^ w := by
  subst h
  rw [rd_skip (Nat.le_refl _), Nat.sub_self, rd_here]

theorem xor_lt_32 {a b : Nat} (ha : a < 4294967296) (hb : b < 4294967296) : a ^^^ b < 4294967296 :=
  Nat.xor_lt_two_pow (n := 32) ha hb

theorem xor_key (a k : Nat) : a ^^^ k ^^^ k = a := by
  rw [Nat.xor_assoc, Nat.xor_self, Nat.xor_zero]

/-- The record loop reads back encoded records up to the "Rich" word. -/
theorem richLoop_enc {key : Nat} (hkey : key < 4294967296) : ∀ (rs : List RichRec) (pre post : Bytes) (len pos : Nat),
    (∀ r ∈ rs, r.InRange) → pre.length = pos + 4 →
    (∀ r ∈ rs, (r.number * 65536 + r.version) ^^^ key ≠ richId) →
    len + 1 = (pre ++ (encWords ((rs.flatMap RichRec.words).map (fun w => w ^^^ key)) ++
      (leBytes 4 richId ++ post))).length → 1 ≤ post.length →
    richLoop (pre ++ (encWords ((rs.flatMap RichRec.words).map (fun w => w ^^^ key)) ++ (leBytes 4 richId ++ post)))
      len key pos = .ok rs
  | [], pre, post, len, pos, _, hp, _, hlen, hpost => by
    simp only [List.flatMap_nil, List.map_nil, encWords, List.nil_append, List.length_append, leBytes_length] at hlen ⊢
    rw [richLoop, if_pos (by omega), if_neg (by omega), readU_ok (by simp; omega), rd_at hp.symm]
    rfl
  | r :: rs, pre, post, len, pos, hr, hp, hne, hlen, hpost => by
    obtain ⟨h1, h2, h3⟩ := hr r (List.mem_cons_self ..)
    have e : pre ++ (encWords (((r :: rs).flatMap RichRec.words).map (fun w => w ^^^ key)) ++ (leBytes 4 richId ++ post))
        = pre ++ (leBytes 4 ((r.number * 65536 + r.version) ^^^ key) ++ (leBytes 4 (r.times ^^^ key) ++
          (encWords ((rs.flatMap RichRec.words).map (fun w => w ^^^ key)) ++ (leBytes 4 richId ++ post)))) := by
      simp [RichRec.words, encWords, List.append_assoc]
    have e2 : pre ++ (encWords (((r :: rs).flatMap RichRec.words).map (fun w => w ^^^ key)) ++ (leBytes 4 richId ++ post))
        = (pre ++ leBytes 4 ((r.number * 65536 + r.version) ^^^ key)) ++ (leBytes 4 (r.times ^^^ key) ++
          (encWords ((rs.flatMap RichRec.words).map (fun w => w ^^^ key)) ++ (leBytes 4 richId ++ post))) := by
      rw [e]; simp [List.append_assoc]
    have e3 : pre ++ (encWords (((r :: rs).flatMap RichRec.words).map (fun w => w ^^^ key)) ++ (leBytes 4 richId ++ post))
        = (pre ++ leBytes 4 ((r.number * 65536 + r.version) ^^^ key) ++ leBytes 4 (r.times ^^^ key)) ++
          (encWords ((rs.flatMap RichRec.words).map (fun w => w ^^^ key)) ++ (leBytes 4 richId ++ post)) := by
      rw [e]; simp [List.append_assoc]
    have hl : (pre ++ (encWords (((r :: rs).flatMap RichRec.words).map (fun w => w ^^^ key)) ++
        (leBytes 4 richId ++ post))).length =
        pre.length + 8 + (encWords ((rs.flatMap RichRec.words).map (fun w => w ^^^ key))).length + 4 + post.length := by
      rw [e]; simp only [List.length_append, leBytes_length]; omega
    have hv : rd 4 (pre ++ (encWords (((r :: rs).flatMap RichRec.words).map (fun w => w ^^^ key)) ++
        (leBytes 4 richId ++ post))) (pos + 4) = (r.number * 65536 + r.version) ^^^ key := by
      rw [e, rd_at hp.symm]
      exact Nat.mod_eq_of_lt (xor_lt_32 (by omega) hkey)
    have ht : rd 4 (pre ++ (encWords (((r :: rs).flatMap RichRec.words).map (fun w => w ^^^ key)) ++
        (leBytes 4 richId ++ post))) (pos + 8) = r.times ^^^ key := by
      rw [e2, rd_at (by simp; omega)]
      exact Nat.mod_eq_of_lt (xor_lt_32 (by omega) hkey)
    have hrest := richLoop_enc hkey rs (pre ++ leBytes 4 ((r.number * 65536 + r.version) ^^^ key) ++
      leBytes 4 (r.times ^^^ key)) post len (pos + 8) (fun x hx => hr x (List.mem_cons_of_mem _ hx))
      (by simp; omega) (fun x hx => hne x (List.mem_cons_of_mem _ hx)) (by rw [hlen, e3]) hpost
    rw [← e3] at hrest
    generalize hB : pre ++ (encWords (((r :: rs).flatMap RichRec.words).map (fun w => w ^^^ key)) ++
        (leBytes 4 richId ++ post)) = B at *
    rw [richLoop, if_pos (by omega), if_neg (by omega), readU_ok (by omega), hv]
    show (if _ then _ else _) = _
    rw [if_neg (hne r (List.mem_cons_self ..)), if_neg (by omega), readU_ok (by omega), ht, hrest]
    show Except.ok _ = _
    rw [xor_key, xor_key]
    congr 2
    obtain ⟨a, v, t⟩ := r
    simp only at h1 h2 ⊢
    congr 1
    · rw [Nat.shiftRight_eq_div_pow]; omega
    · exact (Nat.and_two_pow_sub_one_eq_mod _ 16).trans (by omega)

/-- C48, exactness. A stub overlay that contains the documented encoding of the records `rs` under the 32-bit key
    `key` is read back as exactly `rs` (without touching memory outside of the overlay), provided the signatures
    do not also occur earlier: no "Rich" word before the real one, no word that unmasks to "DanS" in front of the
    header. Anything may follow the header. -/
theorem C48_exact_partial {pre post : Bytes} {key : Nat} {rs : List RichRec} (hkey : key < 4294967296)
    (hr : ∀ r ∈ rs, r.InRange)
    (hrich : NoWordBefore (richStub pre key rs post) (pre.length + 16 + 8 * rs.length) 0x68636952)
    (hdans : NoWordBefore (richStub pre key rs post) pre.length (0x536e6144 ^^^ key)) :
    richOf (richStub pre key rs post) = .ok rs := by
  have hwl : ∀ l : List RichRec, (l.flatMap RichRec.words).length = 2 * l.length := by
    intro l; induction l with
    | nil => rfl
    | cons a l ih => simp [RichRec.words, ih]; omega
  have hbody : (richBody key rs).length = 16 + 8 * rs.length := by
    unfold richBody
    rw [encWords_length, List.length_map, List.length_append, hwl]
    simp; omega
  have hlen : (richStub pre key rs post).length = pre.length + (16 + 8 * rs.length) + 8 + post.length := by
    unfold richStub
    simp [hbody, encWords_length]; omega
  -- reading words of the overlay plus terminator
  have hrd : ∀ i, i + 4 ≤ (richStub pre key rs post).length →
      rd 4 (richStub pre key rs post ++ [0]) i = rd 4 (richStub pre key rs post) i := fun i h => rd_left h
  have hR : rd 4 (richStub pre key rs post) (pre.length + 16 + 8 * rs.length) = richId := by
    have : richStub pre key rs post = (pre ++ richBody key rs) ++ (leBytes 4 0x68636952 ++ (leBytes 4 key ++ post)) := by
      simp [richStub, encWords, List.append_assoc]
    rw [this, rd_at (by simp [hbody]; omega)]; rfl
  have hK : rd 4 (richStub pre key rs post) (pre.length + 16 + 8 * rs.length + 4) = key := by
    have : richStub pre key rs post = (pre ++ (richBody key rs ++ leBytes 4 0x68636952)) ++ (leBytes 4 key ++ post) := by
      simp [richStub, encWords, List.append_assoc]
    rw [this, rd_at (by simp [hbody]; omega)]
    exact Nat.mod_eq_of_lt hkey
  have hD : rd 4 (richStub pre key rs post) pre.length = dansId ^^^ key := by
    have : richStub pre key rs post = pre ++ (leBytes 4 (0x536e6144 ^^^ key) ++
        (encWords (([0, 0, 0] ++ rs.flatMap RichRec.words).map (fun w => w ^^^ key)) ++
          (encWords [0x68636952, key] ++ post))) := by
      simp [richStub, richBody, encWords, List.append_assoc]
    rw [this, rd_at rfl]
    exact Nat.mod_eq_of_lt (xor_lt_32 (by decide) hkey)
  have f1 : findWord (richStub pre key rs post ++ [0]) (richStub pre key rs post).length 0 richId 0 =
      .ok (some (pre.length + 16 + 8 * rs.length)) := by
    refine findWord_first (by omega) (by simp [hlen]; omega) ?_ _ 0 (Nat.zero_add _) ?_
    · rw [hrd _ (by omega), Nat.xor_zero, hR]
    · intro i _ hi
      rw [hrd _ (by omega), Nat.xor_zero]
      exact hrich i hi
  have f2 : findWord (richStub pre key rs post ++ [0]) (richStub pre key rs post).length key dansId 0 =
      .ok (some pre.length) := by
    refine findWord_first (by omega) (by simp [hlen]; omega) ?_ _ 0 (Nat.zero_add _) ?_
    · rw [hrd _ (by omega), hD, xor_key]
    · intro i _ hi
      rw [hrd _ (by omega)]
      intro h
      apply hdans i hi
      have := congrArg (· ^^^ key) h
      simp only [xor_key] at this
      exact this
  have f3 : richLoop (richStub pre key rs post ++ [0]) (richStub pre key rs post).length key (pre.length + 12) =
      .ok rs := by
    have e : richStub pre key rs post ++ [0] =
        (pre ++ encWords ([0x536e6144, 0, 0, 0].map (fun w => w ^^^ key))) ++
        (encWords ((rs.flatMap RichRec.words).map (fun w => w ^^^ key)) ++
          (leBytes 4 richId ++ (leBytes 4 key ++ (post ++ [0])))) := by
      simp [richStub, richBody, encWords, richId, List.append_assoc]
    have hl2 := congrArg List.length e
    rw [e]
    apply richLoop_enc hkey rs _ _ _ _ hr
    · simp [encWords]
    · -- a record equal to the "Rich" word would be an earlier occurrence
      intro r hmem heq
      obtain ⟨l1, l2, rfl⟩ := List.append_of_mem hmem
      have hx : rd 4 (richStub pre key (l1 ++ r :: l2) post) (pre.length + 16 + 8 * l1.length) = richId := by
        have : richStub pre key (l1 ++ r :: l2) post =
            (pre ++ (encWords (([0x536e6144, 0, 0, 0] ++ l1.flatMap RichRec.words).map (fun w => w ^^^ key)))) ++
            (leBytes 4 ((r.number * 65536 + r.version) ^^^ key) ++
              (encWords ([r.times ^^^ key] ++ (l2.flatMap RichRec.words).map (fun w => w ^^^ key)) ++
              (encWords [0x68636952, key] ++ post))) := by
          simp [richStub, richBody, encWords, RichRec.words, List.append_assoc]
        rw [this, rd_at (by rw [List.length_append, encWords_length]; simp [hwl]; omega), heq]
        rfl
      exact hrich _ (by simp) hx
    · rw [← hl2]; simp
    · simp; omega
  unfold richOf
  dsimp only
  rw [if_neg (by omega), f1]
  show (if _ then _ else _) = _
  rw [if_neg (by omega), readU_ok (by simp [hlen]; omega), hrd _ (by omega), hK]
  show (do let x ← findWord _ _ _ _ _; _) = _
  rw [f2]
  exact f3

/-- A stub with two records behind a few bytes, masked, and bytes behind. -/
def sampleRich : List RichRec := [⟨0x5D, 0x1F6F, 7⟩, ⟨1, 0, 120⟩]

example : richOf (richStub [0x0e, 0x1f, 0xba, 0x0e, 0x00] 0x9B7A4C31 sampleRich [0, 0, 0]) = .ok sampleRich :=
  C48_exact_partial (by decide) (by unfold RichRec.InRange; decide)
    (by intro i hi; simp [sampleRich] at hi; revert hi; revert i; decide +kernel)
    (by intro i hi; simp at hi; revert hi; revert i; decide +kernel)

/-- The safety half of C48 does not hold: a stub overlay of at least four bytes without the "Rich" word makes the
    search read behind the buffer. -/
theorem C48_no_marker_overread {stub : Bytes} (h4 : 4 ≤ stub.length)
    (hn : ∀ i, i + 4 ≤ stub.length + 1 → rd 4 (stub ++ [0]) i ≠ 0x68636952) : richOf stub = ubE .oobRead := by
  have hf : ∀ k pos, pos + k = stub.length → 2 ≤ k →
      findWord (stub ++ [0]) stub.length 0 richId pos = ubE .oobRead := by
    intro k
    induction k with
    | zero => intro pos _ h; omega
    | succ k ih =>
      intro pos hk h2
      rw [findWord, if_pos (by omega)]
      by_cases h : pos + 4 ≤ stub.length + 1
      · rw [readU_ok (by simpa using h)]
        show (if _ then _ else _) = _
        rw [Nat.xor_zero, if_neg (show ¬ _ = richId from hn pos h)]
        exact ih (pos + 1) (by omega) (by omega)
      · rw [readU, if_neg (by simpa using h)]
        rfl
  unfold richOf
  dsimp only
  rw [if_neg (by omega), hf _ 0 (Nat.zero_add _) (by omega)]
  rfl

/-- An ordinary DOS stub text has no Rich header. -/
example : richOf "This program cannot be run".toUTF8.toList = ubE .oobRead := by decide +kernel

theorem richLoop_noUB {b : Bytes} {len key r : Nat} (hr : rd 4 b r = richId) (hb : r + 4 ≤ b.length) (hl : r < len) :
    ∀ k pos, pos + 4 + 8 * k = r → NoUB (richLoop b len key pos)
  | 0, pos, hk => by
    have : pos + 4 = r := by omega
    rw [richLoop, if_pos (by omega), if_neg (by omega), this, readU_ok hb]
    show NoUB (if _ then _ else _)
    rw [if_pos hr]
    exact NoUB.ok _
  | k + 1, pos, hk => by
    rw [richLoop, if_pos (by omega), if_neg (by omega), readU_ok (by omega)]
    show NoUB (if _ then _ else _)
    by_cases h : rd 4 b (pos + 4) = richId
    · rw [if_pos h]; exact NoUB.ok _
    · rw [if_neg h, if_neg (by omega), readU_ok (by omega)]
      exact NoUB.bind (x := richLoop b len key (pos + 8)) (richLoop_noUB hr hb hl k (pos + 8) (by omega)) (fun _ _ => NoUB.ok _)

/-- C48, safety, for any bytes: if the first "Rich" word at `r` is followed by its key inside of the overlay, and
    the first "DanS" word under that key at `d` is a whole number of records in front of it, then nothing outside
    of the overlay is read. (Missing: the overlays in which these words are absent, `C48_no_marker_overread`.) -/
theorem C48_safe_partial {stub : Bytes} {r d n : Nat} (hr : rd 4 stub r = 0x68636952) (hr8 : r + 8 ≤ stub.length)
    (hrich : NoWordBefore stub r 0x68636952)
    (hd : rd 4 stub d ^^^ rd 4 stub (r + 4) = 0x536e6144)
    (hdans : ∀ i, i < d → rd 4 stub i ^^^ rd 4 stub (r + 4) ≠ 0x536e6144)
    (hn : d + 16 + 8 * n = r) : NoUB (richOf stub) := by
  have hrd : ∀ i, i + 4 ≤ stub.length → rd 4 (stub ++ [0]) i = rd 4 stub i := fun i h => rd_left h
  have f1 : findWord (stub ++ [0]) stub.length 0 richId 0 = .ok (some r) := by
    refine findWord_first (by omega) (by simp; omega) ?_ _ 0 (Nat.zero_add _) ?_
    · rw [hrd _ (by omega), Nat.xor_zero]; exact hr
    · intro i _ hi
      rw [hrd _ (by omega), Nat.xor_zero]
      exact hrich i hi
  have f2 : findWord (stub ++ [0]) stub.length (rd 4 stub (r + 4)) dansId 0 = .ok (some d) := by
    refine findWord_first (by omega) (by simp; omega) ?_ _ 0 (Nat.zero_add _) ?_
    · rw [hrd _ (by omega)]; exact hd
    · intro i _ hi
      rw [hrd _ (by omega)]
      exact hdans i hi
  unfold richOf
  dsimp only
  rw [if_neg (by omega), f1]
  show NoUB (if _ then _ else _)
  rw [if_neg (by omega), readU_ok (by simp; omega), hrd _ (by omega)]
  show NoUB (do let x ← findWord _ _ _ _ _; _)
  rw [f2]
  exact richLoop_noUB ((hrd _ (by omega)).trans hr) (by simp; omega) (by omega) n (d + 12) (by omega)

example : NoUB (richOf (richStub [0x0e, 0x1f, 0xba, 0x0e, 0x00] 0x9B7A4C31 sampleRich [0, 0, 0])) :=
  C48_safe_partial (r := 37) (d := 5) (n := 2) (by decide +kernel) (by decide +kernel)
    (by intro i hi; revert hi; revert i; decide +kernel) (by decide +kernel)
    (by intro i hi; revert hi; revert i; decide +kernel) rfl

/-- Overlays shorter than four bytes give the empty list. -/
theorem C48_short {stub : Bytes} (h : stub.length < 4) : richOf stub = .ok [] := by
  unfold richOf; rw [if_pos h]

end PE
