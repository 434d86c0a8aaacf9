/-
C38, C39, C40: bitmaps, string tables and message tables.
-/
import Verif.Lemmas.ResourceData
import Verif.Lemmas.Header
import Verif.Props.ResourceManager

namespace PE

/-! ### C38: bitmaps -/

theorem rd_drop (w : Nat) (f : Bytes) (k o : Nat) : rd w (f.drop k) o = rd w f (k + o) := by
  unfold rd slice
  rw [List.drop_drop]

theorem bitmapOffBits_eq {f : Bytes} (h : 54 + 4 * bmpColours f 14 < 2 ^ 32) : bitmapOffBits (f.drop 14) = 54 + 4 * bmpColours f 14 := by
  unfold bitmapOffBits
  unfold bmpColours at h ⊢
  rw [rd_drop, rd_drop]
  by_cases h0 : rd 4 f (14 + 32) ≠ 0
  · rw [if_pos h0] at h ⊢
    rw [if_pos h0]
    unfold w32
    omega
  · rw [if_neg h0] at h ⊢
    rw [if_neg h0]
    by_cases h1 : rd 2 f (14 + 14) ≤ 8
    · rw [if_pos h1, if_pos h1]
    · rw [if_neg h1, if_neg h1]

/-- C38: a bitmap file that was added is read back with a new file header: signature, length of the file, two zero words and the offset
    behind the colour table. Everything behind the file header is the same. -/
theorem C38_round_trip (r r' : ResDir) (f : Bytes) (k : ResKey) (lang cp stamp : Nat) (h : r.addBitmap f k lang cp stamp = (r', .ok ()))
    (hc : ∀ a, r.sub [.id 2, k] = some a → (a.es.map ResEntry.key).count (.id lang) ≤ 1)
    (hf : 54 ≤ f.length) (hf' : f.length < 2 ^ 32) :
    ∃ hdr, r'.getBitmap k lang = .ok (hdr ++ f.drop 14) ∧ hdr.length = 14 ∧ rd 2 hdr 0 = 0x4d42 ∧ rd 4 hdr 2 = f.length ∧
      rd 2 hdr 6 = 0 ∧ rd 2 hdr 8 = 0 ∧ (54 + 4 * bmpColours f 14 < 2 ^ 32 → rd 4 hdr 10 = 54 + 4 * bmpColours f 14) := by
  unfold ResDir.addBitmap at h
  rw [if_neg (by omega)] at h
  have hg := C33_add_then_get r r' _ _ _ _ _ _ h hc
  have hl : (f.drop 14).length = f.length - 14 := List.length_drop
  refine ⟨leBytes 2 0x4d42 ++ (leBytes 4 (w32 (14 + (f.drop 14).length)) ++ (leBytes 2 0 ++ (leBytes 2 0 ++ leBytes 4 (bitmapOffBits (f.drop 14))))),
    ?_, ?_, ?_, ?_, ?_, ?_, ?_⟩
  · unfold ResDir.getBitmap
    rw [hg, ok_bind]
    unfold createBitmap
    rw [throwIf_neg (by rw [hl]; omega), ok_bind]
    simp only [List.append_assoc]
  · simp only [List.length_append, leBytes_length]
  · rw [rd_here]
  · rw [rd_leBytes_skip (by omega), rd_here, hl, w32]
    show _ % 4294967296 = _
    omega
  · rw [rd_leBytes_skip (by omega), rd_leBytes_skip (by omega), rd_here]
  · rw [rd_leBytes_skip (by omega), rd_leBytes_skip (by omega), rd_leBytes_skip (by omega), rd_here]
  · intro hb
    rw [rd_leBytes_skip (by omega), rd_leBytes_skip (by omega), rd_leBytes_skip (by omega), rd_leBytes_skip (by omega), rd_here',
      bitmapOffBits_eq hb]
    exact Nat.mod_eq_of_lt hb

theorem slice_split (f : Bytes) (o n : Nat) : f.drop o = slice f o n ++ f.drop (o + n) := by
  unfold slice
  rw [← List.drop_drop, List.take_append_drop]

/-- C38: a bitmap file as most programs write it is read back unchanged, byte for byte. -/
theorem C38_identity (r r' : ResDir) (f : Bytes) (k : ResKey) (lang cp stamp : Nat) (h : r.addBitmap f k lang cp stamp = (r', .ok ()))
    (hc : ∀ a, r.sub [.id 2, k] = some a → (a.es.map ResEntry.key).count (.id lang) ≤ 1) (hs : StdBitmap f) :
    r'.getBitmap k lang = .ok f := by
  have hlen := hs.long
  have hl : (f.drop 14).length = f.length - 14 := List.length_drop
  unfold ResDir.addBitmap at h
  rw [if_neg (by omega)] at h
  have hg := C33_add_then_get r r' _ _ _ _ _ _ h hc
  unfold ResDir.getBitmap
  rw [hg, ok_bind]
  unfold createBitmap
  rw [throwIf_neg (by rw [hl]; omega), ok_bind]
  refine congrArg Except.ok ?_
  have e0 : f = f.drop 0 := rfl
  have hoff : bitmapOffBits (f.drop 14) = rd 4 f 10 := by
    have hlt : rd 4 f 10 < 2 ^ 32 := rd_lt 4 f 10
    rw [hs.bits] at hlt
    rw [bitmapOffBits_eq hlt, hs.bits]
  have hsz : w32 (14 + (f.drop 14).length) = rd 4 f 2 := by
    have := hs.short
    rw [hs.size, hl]
    unfold w32
    omega
  rw [hoff, hsz, ← hs.sig, leBytes_rd (by omega), leBytes_rd (by omega), leBytes_rd (by omega)]
  have e6 : leBytes 2 0 = slice f 6 2 := by rw [← leBytes_rd (by omega), hs.res1]
  have e8 : leBytes 2 0 = slice f 8 2 := by rw [← leBytes_rd (by omega), hs.res2]
  rw [show ∀ a b c d e : Bytes, a ++ b ++ c ++ d ++ e ++ f.drop 14 = a ++ (b ++ (c ++ (d ++ (e ++ f.drop 14)))) by intros; simp]
  rw [← slice_split f 10 4]
  rw (occs := .pos [2]) [e8]
  rw [← slice_split f 8 2, e6, ← slice_split f 6 2, ← slice_split f 2 4, ← slice_split f 0 2]
  rfl

/-- C38: a file too short for a file header is refused, and nothing changes; one too short for both headers is stored, but is not read
    back. -/
theorem C38_short (r r' : ResDir) (f : Bytes) (k : ResKey) (lang cp stamp : Nat) :
    (f.length < 14 → r.addBitmap f k lang cp stamp = (r, throwE .resourceIncorrectBitmap)) ∧
    (14 ≤ f.length → f.length < 54 → r.addBitmap f k lang cp stamp = (r', .ok ()) →
      (∀ a, r.sub [.id 2, k] = some a → (a.es.map ResEntry.key).count (.id lang) ≤ 1) →
      r'.getBitmap k lang = throwE .resourceIncorrectBitmap) := by
  constructor
  · intro h
    unfold ResDir.addBitmap
    rw [if_pos h]
  · intro h1 h2 h hc
    unfold ResDir.addBitmap at h
    rw [if_neg (by omega)] at h
    have hg := C33_add_then_get r r' _ _ _ _ _ _ h hc
    unfold ResDir.getBitmap
    rw [hg, ok_bind]
    unfold createBitmap
    rw [throwIf_pos (by rw [List.length_drop]; omega)]
    rfl

/-- A bitmap of 2x1 pixels with 1 bit per pixel and the colours black and white. -/
def demoBmp : Bytes :=
  leBytes 2 0x4d42 ++ leBytes 4 66 ++ leBytes 4 0 ++ leBytes 4 62 ++
  (leBytes 4 40 ++ leBytes 4 2 ++ leBytes 4 1 ++ leBytes 2 1 ++ leBytes 2 1 ++ leBytes 4 0 ++ leBytes 4 4 ++ leBytes 4 0 ++ leBytes 4 0 ++
    leBytes 4 0 ++ leBytes 4 0) ++ leBytes 4 0 ++ leBytes 4 0xffffff ++ leBytes 4 0x40

theorem demoBmp_std : StdBitmap demoBmp := by
  constructor <;> decide +kernel

/-- The hypotheses of `C38_round_trip` and `C38_identity` hold: the bitmap is added to the example tree. -/
example : ∃ r', demoRes.addBitmap demoBmp (.id 7) 1033 0 0 = (r', .ok ()) ∧ r'.getBitmap (.id 7) 1033 = .ok demoBmp := by
  have h : (demoRes.addBitmap demoBmp (.id 7) 1033 0 0).2 = .ok () := by
    unfold ResDir.addBitmap
    rw [if_neg (by decide)]
    refine (C33_add_throws _ _ _ _ _ _ _).2 ?_
    have : (demoRes.addResource (demoBmp.drop 14) typeBitmap (.id 7) 1033 0 0).2 = .ok () := by decide +kernel
    intro hb
    rw [(C33_add_throws _ _ _ _ _ _ _).1 hb] at this
    cases this
  refine ⟨(demoRes.addBitmap demoBmp (.id 7) 1033 0 0).1, ?_, ?_⟩
  · rw [← h]
  · refine C38_identity demoRes _ demoBmp (.id 7) 1033 0 0 (by rw [← h]) ?_ demoBmp_std
    intro a ha
    have : (demoRes.sub [.id 2, .id 7]).isSome = false := by decide +kernel
    rw [ha] at this
    cases this

/-! ### C39: string tables -/

/-- The number of the first string of bundle `id`. -/
theorem string_number {id i : Nat} (h1 : 1 ≤ id) (h2 : id < 2 ^ 32) (hi : i < 16) :
    w16 (w32 (w32 (sub32 id 1 * 16) + i)) = 16 * (id - 1) % 65536 + i := by
  unfold w16 w32 sub32
  omega

theorem encStrings_cons (w : WStr) (ws : List WStr) : encStrings (w :: ws) = leBytes 2 w.length ++ (encUnits w ++ encStrings ws) := by
  unfold encStrings
  rw [List.flatMap_cons, List.append_assoc]

theorem stringList_enc {id : Nat} (h1 : 1 ≤ id) (h2 : id < 2 ^ 32) {d : Bytes} : ∀ (ws : List WStr) (i pos : Nat) (m : List (Nat × WStr)),
    i + ws.length ≤ 16 → (∀ w ∈ ws, UcsStr w ∧ w.length < 65536) → At d pos (encStrings ws) → MapSorted (fun a b => decide (a < b)) m →
    (∀ key, 16 * (id - 1) % 65536 + i ≤ key → mapFind key m = none) →
    ∃ m', stringList id d ws.length i pos m = .ok m' ∧
      (∀ k w, ws[k]? = some w → mapFind (16 * (id - 1) % 65536 + i + k) m' = if w = [] then none else some w) ∧
      ∀ key, key < 16 * (id - 1) % 65536 + i ∨ 16 * (id - 1) % 65536 + i + ws.length ≤ key → mapFind key m' = mapFind key m := by
  intro ws
  induction ws with
  | nil => intro i pos m _ _ _ _ _; exact ⟨m, rfl, fun k w h => by simp at h, fun _ _ => rfl⟩
  | cons w ws ih =>
    intro i pos m hi hw ha hs hm
    rw [encStrings_cons] at ha
    have a1 := ha.left
    have a2 : At d (pos + 2) (encUnits w ++ encStrings ws) := ha.right (by rw [leBytes_length])
    have a3 : At d (pos + 2 + 2 * w.length) (encStrings ws) := a2.right (by rw [encUnits_length])
    have l1 := a1.le
    rw [leBytes_length] at l1
    have l2 := a2.left.le
    rw [encUnits_length] at l2
    obtain ⟨hu, hl⟩ := hw w List.mem_cons_self
    rw [List.length_cons] at hi ⊢
    have e1 : stringList id d (ws.length + 1) i pos m = if w.length ≠ 0 then
        stringList id d ws.length (i + 1) (pos + 2 + 2 * w.length) (mapAdd (fun a b => decide (a < b)) (16 * (id - 1) % 65536 + i) w m)
      else stringList id d ws.length (i + 1) (pos + 2 + 2 * w.length) m := by
      rw [stringList, throwIf_neg (by omega), ok_bind, a1.readU (by show _ < 65536; exact hl), ok_bind, throwIf_neg (by omega), ok_bind]
      by_cases h0 : w.length = 0
      · rw [if_neg (by omega), if_neg (by omega)]
      · have := at_readN a2.left
        rw [encUnits_length] at this
        rw [if_pos h0, if_pos h0, this, ok_bind, decUnits_enc hu.lt, fromUcs2_ok hu, ok_bind, string_number h1 h2 (by omega)]
    rw [e1]
    generalize hB : 16 * (id - 1) % 65536 = B at *
    by_cases h0 : w = []
    · subst h0
      rw [if_neg (by simp)]
      obtain ⟨m', hm', f1, f2⟩ := ih (i + 1) _ m (by omega) (fun v hv => hw v (List.mem_cons_of_mem _ hv)) a3 hs
        (fun key hk => hm key (by omega))
      refine ⟨m', hm', fun k v hk => ?_, fun key hk => f2 key (by omega)⟩
      cases k with
      | zero =>
        cases hk
        rw [if_pos rfl, f2 _ (by omega), hm _ (by omega)]
      | succ k =>
        rw [show B + i + (k + 1) = B + (i + 1) + k by omega]
        exact f1 k v hk
    · rw [if_pos (by intro h; exact h0 (List.eq_nil_of_length_eq_zero h))]
      have hins := fun k' => mapFind_insert natOrd (B + i) w hs k'
      obtain ⟨m', hm', f1, f2⟩ := ih (i + 1) _ (mapAdd (fun a b => decide (a < b)) (B + i) w m) (by omega)
        (fun v hv => hw v (List.mem_cons_of_mem _ hv)) a3 (mapAdd_sorted natOrd _ _ hs)
        (fun key hk => by rw [hins, if_neg (by omega)]; exact hm key (by omega))
      refine ⟨m', hm', fun k v hk => ?_, fun key hk => ?_⟩
      · cases k with
        | zero =>
          cases hk
          rw [if_neg h0, f2 _ (by omega), Nat.add_zero, hins, if_pos rfl, hm _ (by omega)]
          rfl
        | succ k =>
          rw [show B + i + (k + 1) = B + (i + 1) + k by omega]
          exact f1 k v hk
      · rw [f2 key (by omega), hins, if_neg (by omega)]

/-- C39: the strings of bundle `id` get the numbers `16 * (id - 1) + k` (as 16-bit numbers); empty strings are left out, and no other
    numbers are present. -/
theorem C39_numbers (id : Nat) (h1 : 1 ≤ id) (h2 : id < 2 ^ 32) (ws : List WStr) (hn : ws.length = 16)
    (hw : ∀ w ∈ ws, UcsStr w ∧ w.length < 65536) (tail : Bytes) :
    ∃ m, parseStringList id (encStrings ws ++ tail) = .ok m ∧
      (∀ k w, ws[k]? = some w → mapFind ((16 * (id - 1) + k) % 65536) m = if w = [] then none else some w) ∧
      ∀ key w, mapFind key m = some w → ∃ k, k < 16 ∧ key = (16 * (id - 1) + k) % 65536 := by
  obtain ⟨m, hm, f1, f2⟩ := stringList_enc h1 h2 (d := encStrings ws ++ tail) ws 0 0 [] (by omega) hw ((at_self _).more tail) List.Pairwise.nil
    (fun _ _ => rfl)
  rw [hn] at hm
  refine ⟨m, hm, fun k w hk => ?_, fun key w hk => ?_⟩
  · have hk16 : k < 16 := by
      have := (List.getElem?_eq_some_iff.mp hk).1
      omega
    rw [show (16 * (id - 1) + k) % 65536 = 16 * (id - 1) % 65536 + 0 + k by omega]
    exact f1 k w hk
  · have hr : ¬ (key < 16 * (id - 1) % 65536 + 0 ∨ 16 * (id - 1) % 65536 + 0 + ws.length ≤ key) := by
      intro h
      rw [f2 key h] at hk
      cases hk
    refine ⟨key - 16 * (id - 1) % 65536, by omega, by omega⟩

/-- The hypotheses of `C39_numbers` hold: strings 16 to 31. -/
example : ∃ m, parseStringList 2 (encStrings ([[72, 105], [], [0x20AC]] ++ List.replicate 13 []) ++ [0, 0]) = .ok m ∧
    mapFind 16 m = some [72, 105] ∧ mapFind 17 m = none ∧ mapFind 18 m = some [0x20AC] ∧ mapFind 0 m = none := by
  obtain ⟨m, h, f, g⟩ := C39_numbers 2 (by decide) (by decide) ([[72, 105], [], [0x20AC]] ++ List.replicate 13 []) (by decide)
    (by
      intro w hw
      rcases List.mem_append.mp hw with hw | hw
      · simp only [List.mem_cons, List.not_mem_nil, or_false] at hw
        rcases hw with rfl | rfl | rfl <;> exact ⟨fun c hc => (by simp at hc <;> omega), by simp⟩
      · rw [(List.mem_replicate.mp hw).2]
        exact ⟨fun c hc => (by cases hc), by decide⟩) [0, 0]
  refine ⟨m, h, f 0 _ rfl, f 1 _ rfl, f 2 _ rfl, ?_⟩
  cases hq : mapFind 0 m with
  | none => rfl
  | some w => obtain ⟨k, hk, e⟩ := g 0 w hq; omega

theorem stringList_sound {id : Nat} {d : Bytes} : ∀ (n i pos : Nat) (m m' : List (Nat × WStr)), pos ≤ d.length →
    stringList id d n i pos m = .ok m' →
    ∃ ws, ws.length = n ∧ (∀ w ∈ ws, UcsStr w ∧ w.length < 65536) ∧ At d pos (encStrings ws) := by
  intro n
  induction n with
  | zero => intro i pos m m' hp h; exact ⟨[], rfl, (by intro w hw; cases hw), ⟨by simpa [encStrings] using hp, by simp [encStrings, slice]⟩⟩
  | succ n ih =>
    intro i pos m m' hp h
    rw [stringList] at h
    obtain ⟨_, h1, h⟩ := bind_ok_iff.mp h
    rw [throwIf_ok_iff] at h1
    rw [readU_ok (by omega), ok_bind] at h
    obtain ⟨_, h2, h⟩ := bind_ok_iff.mp h
    rw [throwIf_ok_iff] at h2
    have hlt : rd 2 d pos < 65536 := rd_lt 2 _ _
    have a1 : At d pos (leBytes 2 (rd 2 d pos)) := ⟨by rw [leBytes_length]; omega, by rw [leBytes_length, leBytes_rd (by omega)]⟩
    by_cases h0 : rd 2 d pos = 0
    · rw [if_neg (by omega), h0, Nat.mul_zero, Nat.add_zero] at h
      obtain ⟨ws, e, hw, ha⟩ := ih _ _ _ _ (by omega) h
      refine ⟨[] :: ws, by rw [List.length_cons, e], ?_, ?_⟩
      · intro w hw'
        rcases List.mem_cons.mp hw' with rfl | hw'
        · exact ⟨fun c hc => (by cases hc), by decide⟩
        · exact hw w hw'
      · rw [encStrings_cons]
        rw [h0] at a1
        exact at_append a1 (by rw [leBytes_length]; exact ha)
    · rw [if_pos h0] at h
      obtain ⟨x, hx, h⟩ := bind_ok_iff.mp h
      obtain ⟨w, hw, h⟩ := bind_ok_iff.mp h
      obtain ⟨rfl, hu⟩ := fromUcs2_eq.mp hw
      unfold readN at hx
      split at hx
      · rename_i hfit
        cases hx
        have hsl : (slice d (pos + 2) (2 * rd 2 d pos)).length = 2 * rd 2 d pos := slice_length_of_le hfit
        obtain ⟨hed, _⟩ := encUnits_dec _ _ hsl
        have hwl : (decUnits (slice d (pos + 2) (2 * rd 2 d pos))).length = rd 2 d pos := by
          have := congrArg List.length hed
          rw [encUnits_length, hsl] at this
          omega
        obtain ⟨ws, e, hw', ha⟩ := ih _ _ _ _ (by omega) h
        refine ⟨decUnits (slice d (pos + 2) (2 * rd 2 d pos)) :: ws, by rw [List.length_cons, e], ?_, ?_⟩
        · intro w hw''
          rcases List.mem_cons.mp hw'' with rfl | hw''
          · exact ⟨hu, by rw [hwl]; exact hlt⟩
          · exact hw' w hw''
        · rw [encStrings_cons, hwl]
          refine at_append a1 (at_append ?_ ?_)
          · rw [leBytes_length, hed]
            exact ⟨by rw [hsl]; exact hfit, by rw [hsl]⟩
          · rw [leBytes_length, hed, hsl]
            exact ha
      · cases hx

/-- C39: a table that is read without an error consists of 16 strings, one after the other, and the result is given by
    `C39_numbers`. -/
theorem C39_sound (id : Nat) (d : Bytes) (m : List (Nat × WStr)) (h : parseStringList id d = .ok m) :
    ∃ ws tail, d = encStrings ws ++ tail ∧ ws.length = 16 ∧ ∀ w ∈ ws, UcsStr w ∧ w.length < 65536 := by
  obtain ⟨ws, e, hw, ha⟩ := stringList_sound 16 0 0 [] m (Nat.zero_le _) h
  refine ⟨ws, d.drop (encStrings ws).length, ?_, e, hw⟩
  have := ha.split
  rwa [List.drop_zero, Nat.zero_add] at this

/-- Looking up a string in a table that was read. -/
theorem findString {id : Nat} (hid : id < 65536) {ws : List WStr} (hn : ws.length = 16)
    (hw : ∀ w ∈ ws, UcsStr w ∧ w.length < 65536) (tail : Bytes) {w : WStr} (hk : ws[id % 16]? = some w) :
    (do let m ← parseStringList (id / 16 + 1) (encStrings ws ++ tail)
        match mapFind id m with
        | some w => .ok w
        | none => throwE .resourceStringNotFound : Res WStr) = if w = [] then throwE .resourceStringNotFound else .ok w := by
  obtain ⟨m, hm, f, _⟩ := C39_numbers (id / 16 + 1) (by omega) (by omega) ws hn hw tail
  rw [hm, ok_bind]
  have := f _ _ hk
  rw [show (16 * (id / 16 + 1 - 1) + id % 16) % 65536 = id by omega] at this
  rw [this]
  split
  · rename_i w' hw'
    split at hw'
    · cases hw'
    · rename_i h0
      cases hw'
      rw [if_neg h0]
  · rename_i hw'
    split at hw'
    · rename_i h0
      rw [if_pos h0]
    · cases hw'

theorem C39_string_by_id (r : ResDir) (lang id : Nat) (hid : id < 65536) (cp : Nat) (ws : List WStr) (tail : Bytes) (hn : ws.length = 16)
    (hw : ∀ w ∈ ws, UcsStr w ∧ w.length < 65536) (h : r.getData (.id 6) (.id (id / 16 + 1)) lang = .ok (cp, encStrings ws ++ tail)) :
    ∀ w, ws[id % 16]? = some w → r.stringById lang id = if w = [] then throwE .resourceStringNotFound else .ok w := by
  intro w hk
  unfold ResDir.stringById ResDir.stringTable typeString
  rw [h, ok_bind]
  exact findString hid hn hw tail hk

/-- C39: the same for the string of a table chosen by its position among the languages. -/
theorem C39_string_at (r : ResDir) (id index : Nat) (hid : id < 65536) (cp : Nat) (ws : List WStr) (tail : Bytes) (hn : ws.length = 16)
    (hw : ∀ w ∈ ws, UcsStr w ∧ w.length < 65536) (h : r.getDataAt (.id 6) (.id (id / 16 + 1)) index = .ok (cp, encStrings ws ++ tail)) :
    ∀ w, ws[id % 16]? = some w → r.stringByIdAt id index = if w = [] then throwE .resourceStringNotFound else .ok w := by
  intro w hk
  unfold ResDir.stringByIdAt ResDir.stringTableAt typeString
  rw [h, ok_bind]
  exact findString hid hn hw tail hk

/-- C39: on data in which no string is cut off (a length that is accepted fits also when counted in characters of two bytes) parsing never
    reads outside of the data. Missing: the code compares the number of characters with the number of bytes, see
    `C39_overread`. -/
theorem C39_safe_partial (id : Nat) (d : Bytes)
    (hfit : ∀ pos, pos + 2 + rd 2 d pos ≤ d.length → pos + 2 + 2 * rd 2 d pos ≤ d.length) : NoUB (parseStringList id d) := by
  unfold parseStringList
  suffices ∀ n i pos m, NoUB (stringList id d n i pos m) from this 16 0 0 []
  intro n
  induction n with
  | zero => intro i pos m; exact NoUB.ok _
  | succ n ih =>
    intro i pos m
    rw [stringList]
    refine NoUB.bind (NoUB.throwIf _ _) fun _ h1 => ?_
    rw [throwIf_ok_iff] at h1
    rw [readU_ok (by omega), ok_bind]
    refine NoUB.bind (NoUB.throwIf _ _) fun _ h2 => ?_
    rw [throwIf_ok_iff] at h2
    have := hfit pos (by omega)
    split
    · rw [readN_ok (by omega), ok_bind]
      exact NoUB.bind (fromUcs2_noUB _) fun _ _ => ih _ _ _
    · exact ih _ _ _

/-- `C39_safe_partial` applies to all complete tables: `encStrings` fits by construction. -/
example : ∀ pos, pos + 2 + rd 2 (zeros 32) pos ≤ (zeros 32).length → pos + 2 + 2 * rd 2 (zeros 32) pos ≤ (zeros 32).length := by
  intro pos h
  rw [zeros_length] at *
  have : rd 2 (zeros 32) pos = 0 := by
    unfold rd slice
    rw [zeros, List.drop_replicate, List.take_replicate]
    exact fromLE_zeros _
  omega

/-- C39 is false in general: a table of 4 bytes with a string of length 2 makes the reader read 2 bytes behind the end. -/
theorem C39_overread : parseStringList 1 [2, 0, 65, 0] = .error (.ub .oobRead) := by rfl

/-! ### C40: message tables -/

/-- C40: parsing a message table ends and never reads outside of the data, whatever the data are. -/
theorem C40_safe (d : Bytes) (u : UB) : parseMessageList d ≠ .error (.ub u) := by
  refine (show NoUB (parseMessageList d) from ?_) u
  unfold parseMessageList
  refine NoUB.bind (NoUB.throwIf _ _) fun _ h1 => ?_
  rw [throwIf_ok_iff] at h1
  rw [readU_ok (by omega), ok_bind]
  refine NoUB.bind (NoUB.throwIf _ _) fun _ h2 => ?_
  rw [throwIf_ok_iff] at h2
  obtain ⟨_, h2⟩ := not_or.mp h2
  obtain ⟨_, h2⟩ := not_or.mp h2
  exact messageBlocks_noUB _ _ _ (by omega)

theorem parseMessageList_iff {d : Bytes} {m : List (Nat × Message)} :
    parseMessageList d = .ok m ↔ rd 4 d 0 < 357913941 ∧ 12 * rd 4 d 0 + 16 ≤ d.length ∧ 12 * rd 4 d 0 + 16 ≤ 4294967295 ∧
      messageBlocks d (rd 4 d 0) 0 [] = .ok m := by
  unfold parseMessageList
  constructor
  · intro h
    obtain ⟨_, h1, h⟩ := bind_ok_iff.mp h
    rw [throwIf_ok_iff] at h1
    rw [readU_ok (by omega), ok_bind] at h
    obtain ⟨_, h2, h⟩ := bind_ok_iff.mp h
    rw [throwIf_ok_iff] at h2
    obtain ⟨n1, h2⟩ := not_or.mp h2
    obtain ⟨n2, n3⟩ := not_or.mp h2
    unfold isSumSafe w32 at n2
    simp only [decide_eq_false_iff_not, Classical.not_not] at n2
    exact ⟨by omega, by omega, by omega, h⟩
  · rintro ⟨h1, h2, h3, h⟩
    rw [throwIf_neg (by omega), ok_bind, readU_ok (by omega), ok_bind, throwIf_neg, ok_bind, h]
    rintro (h | h | h)
    · omega
    · unfold isSumSafe w32 at h
      simp only [decide_eq_false_iff_not] at h
      rw [Nat.mod_eq_of_lt (by omega)] at h
      omega
    · omega

/-- C40: the result of parsing. Every number in the range of a block has the text that is stored at its place in the first such block
    (places are counted from the start of the block, every entry states its length), and other numbers have none. -/
theorem C40_sound (d : Bytes) (m : List (Nat × Message)) (h : parseMessageList d = .ok m) :
    (∀ i id, i < rd 4 d 0 → InBlock d i id → (∀ i', i' < i → ¬ InBlock d i' id) →
      ∃ t, MessageAt d (msgPos d (blockOff d i) (id - blockLow d i)) t ∧ mapFind id m = some t) ∧
    ∀ id t, mapFind id m = some t → ∃ i, i < rd 4 d 0 ∧ InBlock d i id := by
  obtain ⟨h1, h2, h3, h⟩ := parseMessageList_iff.mp h
  obtain ⟨_, _, hf⟩ := messageBlocks_sound _ _ _ _ (by omega) h List.Pairwise.nil
  refine ⟨fun i id hi hin hb => (hf id).2.2 i (by omega) (by omega) hin (fun k' _ h => hb k' h) rfl, fun id t ht => ?_⟩
  refine Classical.byContradiction fun hn => ?_
  rw [(hf id).1 fun k _ hk hin => hn ⟨k, by omega, hin⟩] at ht
  cases ht

/-- C40: tables in which all entries of all blocks are present are read (`C40_sound` says with which result). -/
theorem C40_complete (d : Bytes) (hd : d.length < 2 ^ 32) (hn : rd 4 d 0 < 357913940) (hl : 16 + 12 * rd 4 d 0 ≤ d.length)
    (hb : ∀ i, i < rd 4 d 0 → blockOff d i ≤ d.length ∧ blockLow d i ≤ blockHigh d i ∧ blockHigh d i < 2 ^ 32 - 1 ∧
      ∀ id, InBlock d i id → ∃ t, MessageAt d (msgPos d (blockOff d i) (id - blockLow d i)) t) :
    ∃ m, parseMessageList d = .ok m := by
  obtain ⟨m, hm⟩ := messageBlocks_complete (d := d) hd (rd 4 d 0) 0 [] (by omega) (fun k _ hk => hb k (by omega))
  exact ⟨m, parseMessageList_iff.mpr ⟨by omega, by omega, by omega, hm⟩⟩

/-- C40: what the code demands of a table: every block has a range of numbers below 2^32-1. A block whose last number is 2^32-1
    is always refused (the numbers wrap, and entries are read until the data end). -/
theorem C40_last_number (d : Bytes) (i : Nat) (hi : i < rd 4 d 0) (hh : blockHigh d i = 2 ^ 32 - 1) :
    ∃ e, parseMessageList d = throwE e := by
  cases hp : parseMessageList d with
  | error f =>
    cases f with
    | exn e => exact ⟨e, rfl⟩
    | ub u => exact absurd hp (C40_safe d u)
  | ok m =>
    obtain ⟨h1, h2, h3, h⟩ := parseMessageList_iff.mp hp
    obtain ⟨_, hg, _⟩ := messageBlocks_sound _ _ _ _ (by omega) h List.Pairwise.nil
    have := (hg i (by omega) (by omega)).2.2
    omega

/-- A message table with the messages 5 ("Hi", ANSI) and 6 ("Ok", characters of two bytes). -/
def demoMsg : Bytes :=
  leBytes 4 1 ++ leBytes 4 5 ++ leBytes 4 6 ++ leBytes 4 16 ++
  (leBytes 2 8 ++ leBytes 2 0 ++ [72, 105, 0, 0]) ++ (leBytes 2 12 ++ leBytes 2 1 ++ [79, 0, 107, 0, 0, 0, 0, 0])

/-- The hypotheses of `C40_complete` and `C40_sound` hold for the example. -/
example : ∃ m, parseMessageList demoMsg = .ok m ∧ mapFind 5 m = some (.ansi [72, 105]) ∧ mapFind 6 m = some (.wide [79, 107]) ∧
    mapFind 7 m = none := by
  have e0 : rd 4 demoMsg 0 = 1 := by decide +kernel
  have b0 : blockLow demoMsg 0 = 5 := by decide +kernel
  have b1 : blockHigh demoMsg 0 = 6 := by decide +kernel
  have b2 : blockOff demoMsg 0 = 16 := by decide +kernel
  have t5 : ∀ t, MessageAt demoMsg 16 t ↔ t = .ansi [72, 105] := by
    intro t
    rw [← messageText_iff (by decide +kernel) (by decide +kernel)]
    have : messageText demoMsg 16 (rd 2 demoMsg 16) (rd 2 demoMsg (16 + 2)) = .ok (.ansi [72, 105]) := by rfl
    rw [this]
    constructor
    · intro h; cases h; rfl
    · intro h; rw [h]
  have t6 : ∀ t, MessageAt demoMsg 24 t ↔ t = .wide [79, 107] := by
    intro t
    rw [← messageText_iff (by decide +kernel) (by decide +kernel)]
    have : messageText demoMsg 24 (rd 2 demoMsg 24) (rd 2 demoMsg (24 + 2)) = .ok (.wide [79, 107]) := by rfl
    rw [this]
    constructor
    · intro h; cases h; rfl
    · intro h; rw [h]
  have p1 : msgPos demoMsg 16 1 = 24 := by decide +kernel
  obtain ⟨m, hm⟩ := C40_complete demoMsg (by decide +kernel) (by rw [e0]; decide) (by decide +kernel) (by
    intro i hi
    have : i = 0 := by omega
    subst this
    rw [b0, b1, b2]
    refine ⟨by decide +kernel, by decide, by decide, fun id hid => ?_⟩
    unfold InBlock at hid
    rw [b0, b1] at hid
    rcases (by omega : id = 5 ∨ id = 6) with rfl | rfl
    · exact ⟨_, (t5 _).mpr rfl⟩
    · refine ⟨.wide [79, 107], ?_⟩
      rw [show 6 - 5 = 1 from rfl, p1]
      exact (t6 _).mpr rfl)
  obtain ⟨s1, s2⟩ := C40_sound demoMsg m hm
  refine ⟨m, hm, ?_, ?_, ?_⟩
  · obtain ⟨t, ht, e⟩ := s1 0 5 (by omega) (by unfold InBlock; omega) (fun i' h => by omega)
    rw [b0, b2] at ht
    rw [e, (t5 t).mp ht]
  · obtain ⟨t, ht, e⟩ := s1 0 6 (by omega) (by unfold InBlock; omega) (fun i' h => by omega)
    rw [b0, b2, show 6 - 5 = 1 from rfl, p1] at ht
    rw [e, (t6 t).mp ht]
  · cases hq : mapFind 7 m with
    | none => rfl
    | some t =>
      obtain ⟨i, hi, hin⟩ := s2 7 t hq
      have : i = 0 := by omega
      subst this
      unfold InBlock at hin
      omega

/-- The check of the size asks for room for one block more than there is: a complete table with one message of 4 bytes is refused. -/
theorem C40_small_table :
    let d := leBytes 4 1 ++ leBytes 4 5 ++ leBytes 4 5 ++ leBytes 4 16 ++ leBytes 2 4 ++ leBytes 2 0
    MessageAt d (msgPos d (blockOff d 0) 0) (.ansi []) ∧ parseMessageList d = throwE .resourceIncorrectMessageTable := by
  refine ⟨?_, ?_⟩
  · rw [show ∀ d : Bytes, msgPos d (blockOff d 0) 0 = blockOff d 0 from fun _ => rfl]
    have : blockOff (leBytes 4 1 ++ leBytes 4 5 ++ leBytes 4 5 ++ leBytes 4 16 ++ leBytes 2 4 ++ leBytes 2 0) 0 = 16 := by decide +kernel
    rw [this, ← messageText_iff (by decide +kernel) (by decide +kernel)]
    rfl
  · rfl

end PE
