/-
Lemmas for version information: what the writer writes.
-/
import Verif.Spec.VersionInfo
import Verif.Lemmas.IconsWrite
import Verif.Lemmas.ResourceData
import Verif.Lemmas.Align

namespace PE

theorem ceil4 (x : Nat) : ceilTo x 4 = (x + 3) / 4 * 4 := by
  unfold ceilTo
  split <;> omega

theorem toUcs2_bad {w : WStr} (h : ¬ UcsStr w) : toUcs2 w = throwE .encodingConvertionError := by
  unfold toUcs2
  rw [if_neg]
  intro h'
  rw [List.all_eq_true] at h'
  exact h fun c hc => (isUcs2_iff c).mp (h' c hc)

/-! ### The bytes -/

/-- Padding behind `n` bytes. -/
def viPadB (n : Nat) : Bytes := if n % 4 ≠ 0 then zeros 2 else []

/-- Key with terminator and padding. -/
def viKeyB (s : WStr) : Bytes := encUnits s ++ zeros 2 ++ viPadB (6 + 2 * (s.length + 1))

/-- The bytes of a string. -/
def viStrB (x : WStr × WStr) : Bytes :=
  viHdr (w16 (ceilTo (6 + 2 * (x.1.length + 1)) 4 + w16 (x.2.length + 1) * 2)) (w16 (x.2.length + 1)) 1 ++ viKeyB x.1 ++
    ((encUnits x.2 ++ zeros 2).take (w16 (x.2.length + 1) * 2) ++ viPadB (w16 (x.2.length + 1) * 2))

/-- The bytes of a table. -/
def viTableB (x : WStr × StrMap) : Bytes :=
  viHdr (6 + (viKeyB x.1 ++ x.2.flatMap viStrB).length) 0 1 ++ (viKeyB x.1 ++ x.2.flatMap viStrB)

/-- The bytes of StringFileInfo. -/
def viStringsB (ss : LangMap) : Bytes :=
  if ss = [] then [] else
    viHdr (6 + (encUnits keyStrings ++ zeros 2 ++ ss.flatMap viTableB).length) 0 1 ++ (encUnits keyStrings ++ zeros 2 ++ ss.flatMap viTableB)

/-- The bytes of a pair. -/
def viPairB (x : Nat × Nat) : Bytes := leBytes 2 x.1 ++ leBytes 2 x.2

/-- The bytes of the Translation block. -/
def viTransB1 (ts : TransMap) : Bytes :=
  viHdr (6 + (encUnits keyTrans ++ zeros 4 ++ ts.flatMap viPairB).length) (4 * ts.length) 0 ++ (encUnits keyTrans ++ zeros 4 ++ ts.flatMap viPairB)

/-- The bytes of VarFileInfo. -/
def viTransB (ts : TransMap) : Bytes :=
  if ts = [] then [] else
    viHdr (6 + (encUnits keyVar ++ zeros 4 ++ viTransB1 ts).length) 0 1 ++ (encUnits keyVar ++ zeros 4 ++ viTransB1 ts)

/-- The bytes of the root block. -/
def viRootB (f : FileVer) (total : Nat) : Bytes := viHdr total 52 0 ++ (encUnits keyRoot ++ zeros 2) ++ zeros 2 ++ viFixedBytes f

/-! ### The writer -/

/-- The state of the writer after writing `acc`, with `tail` behind it. -/
def vst (acc tail : Bytes) : ViOut := (acc ++ tail, acc.length)

/-- The writer goes to `r` if `c` holds, and otherwise fails to convert a string. -/
def Wr (c : Prop) (x : Res ViOut) (r : ViOut) : Prop := (c → x = .ok r) ∧ (¬ c → x = throwE .encodingConvertionError)

theorem Wr.of_ok {c : Prop} (hc : c) {x : Res ViOut} {r : ViOut} (h : x = .ok r) : Wr c x r := ⟨fun _ => h, fun h' => absurd hc h'⟩

theorem Wr.bind {c c' : Prop} {x : Res ViOut} {r r' : ViOut} {f : ViOut → Res ViOut} (h : Wr c x r) (h' : Wr c' (f r) r') :
    Wr (c ∧ c') (x >>= f) r' := by
  by_cases hc : c
  · rw [h.1 hc, ok_bind]
    exact ⟨fun a => h'.1 a.2, fun a => h'.2 fun b => a ⟨hc, b⟩⟩
  · rw [h.2 hc]
    exact ⟨fun a => absurd a.1 hc, fun _ => rfl⟩

theorem Wr.mono {c c' : Prop} {x : Res ViOut} {r : ViOut} (h : Wr c x r) (hc : c ↔ c') : Wr c' x r :=
  ⟨fun a => h.1 (hc.mpr a), fun a => h.2 fun b => a (hc.mp b)⟩

theorem viPut_st {acc tail x : Bytes} (h : x.length ≤ tail.length) (hl : acc.length + tail.length < 4294967296) :
    viPut (vst acc tail) x = .ok (vst (acc ++ x) (tail.drop x.length)) := by
  unfold viPut vst
  rw [writeAt_append rfl h, ok_bind]
  rw [List.length_append]
  unfold w32
  rw [Nat.mod_eq_of_lt (by omega)]

theorem viPadB_length (n : Nat) : (viPadB n).length ≤ 2 ∧ (n % 4 = 0 → (viPadB n).length = 0) ∧ (n % 4 ≠ 0 → (viPadB n).length = 2) := by
  unfold viPadB
  split
  · simp_all
  · simp_all

theorem viPad_st {acc tail : Bytes} {n : Nat} (h : (viPadB n).length ≤ tail.length) (hl : acc.length + tail.length < 4294967296) :
    viPad (vst acc tail) n = .ok (vst (acc ++ viPadB n) (tail.drop (viPadB n).length)) := by
  unfold viPad
  unfold viPadB at h ⊢
  split
  · rename_i hn
    rw [if_pos hn] at h
    exact viPut_st h hl
  · rw [List.append_nil]; rfl

theorem vst_drop (acc x y : Bytes) (tail : Bytes) :
    vst (acc ++ x ++ y) ((tail.drop x.length).drop y.length) = vst (acc ++ (x ++ y)) (tail.drop (x ++ y).length) := by
  rw [List.drop_drop, List.append_assoc, List.length_append]

theorem viKeyB_length (s : WStr) : (viKeyB s).length = 2 * (s.length + 1) + (viPadB (6 + 2 * (s.length + 1))).length := by
  unfold viKeyB
  rw [List.length_append, List.length_append, encUnits_length, zeros_length]; omega

theorem viKeyB_ceil (s : WStr) : 6 + (viKeyB s).length = ceilTo (6 + 2 * (s.length + 1)) 4 := by
  rw [viKeyB_length, ceil4]
  obtain ⟨h1, h2, h3⟩ := viPadB_length (6 + 2 * (s.length + 1))
  by_cases h : (6 + 2 * (s.length + 1)) % 4 = 0
  · rw [h2 h]; omega
  · rw [h3 h]; omega

theorem viPutKey_wr {acc tail : Bytes} {s : WStr} (h : (viKeyB s).length ≤ tail.length) (hl : acc.length + tail.length < 4294967296) :
    Wr (UcsStr s) (viPutKey (vst acc tail) s) (vst (acc ++ viKeyB s) (tail.drop (viKeyB s).length)) := by
  have hk := viKeyB_length s
  have e : viKeyLen s = 2 * (s.length + 1) := by unfold viKeyLen w32; rw [Nat.mod_eq_of_lt (by omega)]; omega
  have e2 : (encUnits s ++ zeros 2).length = 2 * (s.length + 1) := by rw [List.length_append, encUnits_length, zeros_length]; omega
  unfold viPutKey
  constructor
  · intro hu
    rw [toUcs2_ok hu, ok_bind, e, List.take_of_length_le (by omega), viPut_st (by omega) hl, ok_bind, viPad_st]
    · rw [vst_drop]; rfl
    · rw [List.length_drop]; omega
    · rw [List.length_drop, List.length_append]; omega
  · intro hu
    rw [toUcs2_bad hu]
    rfl

theorem viHdr_length (a b c : Nat) : (viHdr a b c).length = 6 := by
  simp [viHdr]

theorem viStrB_length (x : WStr × WStr) :
    (viStrB x).length = ceilTo (6 + 2 * (x.1.length + 1)) 4 + ceilTo (w16 (x.2.length + 1) * 2) 4 := by
  have hv : w16 (x.2.length + 1) ≤ x.2.length + 1 := Nat.mod_le _ _
  unfold viStrB
  rw [List.length_append, List.length_append, List.length_append, viHdr_length, viKeyB_ceil, List.length_take, List.length_append,
    encUnits_length, zeros_length, ceil4 (w16 _ * 2)]
  obtain ⟨h1, h2, h3⟩ := viPadB_length (w16 (x.2.length + 1) * 2)
  by_cases h : (w16 (x.2.length + 1) * 2) % 4 = 0
  · rw [h2 h]; omega
  · rw [h3 h]; omega

theorem viPutString_wr {acc tail : Bytes} {x : WStr × WStr} (h : (viStrB x).length ≤ tail.length)
    (hl : acc.length + tail.length < 4294967296) :
    Wr (UcsStr x.1 ∧ UcsStr x.2) (viPutString (vst acc tail) x) (vst (acc ++ viStrB x) (tail.drop (viStrB x).length)) := by
  have hk := viKeyB_length x.1
  have hkc := viKeyB_ceil x.1
  have e : viKeyLen x.1 = 2 * (x.1.length + 1) := by
    have := viStrB_length x
    unfold viKeyLen w32; rw [Nat.mod_eq_of_lt (by omega)]; omega
  have hlen : (viStrB x).length = 6 + (viKeyB x.1).length + (((encUnits x.2 ++ zeros 2).take (w16 (x.2.length + 1) * 2)).length +
      (viPadB (w16 (x.2.length + 1) * 2)).length) := by
    unfold viStrB
    rw [List.length_append, List.length_append, List.length_append, viHdr_length]
  unfold viPutString
  dsimp only
  rw [viPut_st (by rw [viHdr_length]; omega) hl, ok_bind, viHdr_length]
  refine (Wr.bind (viPutKey_wr (by rw [List.length_drop]; omega) (by rw [List.length_drop, List.length_append, viHdr_length]; omega)) ?_)
  by_cases hu : UcsStr x.2
  · refine Wr.of_ok hu ?_
    rw [toUcs2_ok hu, ok_bind, viPut_st, ok_bind, viPad_st]
    · rw [vst_drop, e, alignUp64_eq pow2_4 (by omega), List.drop_drop, List.drop_drop, hlen]
      have hlen' : ((encUnits x.2 ++ zeros 2).take (w16 (x.2.length + 1) * 2) ++ viPadB (w16 (x.2.length + 1) * 2)).length =
        ((encUnits x.2 ++ zeros 2).take (w16 (x.2.length + 1) * 2)).length + (viPadB (w16 (x.2.length + 1) * 2)).length := List.length_append
      rw [hlen', viStrB]
      generalize (encUnits x.2 ++ zeros 2).take (w16 (x.2.length + 1) * 2) ++ viPadB (w16 (x.2.length + 1) * 2) = V
      simp only [List.append_assoc, Nat.add_assoc]
    · rw [List.length_drop, List.length_drop, List.length_drop]; omega
    · rw [List.length_append, List.length_append, List.length_append, viHdr_length, List.length_drop, List.length_drop, List.length_drop]; omega
    · rw [List.length_drop, List.length_drop]; omega
    · rw [List.length_append, List.length_append, viHdr_length, List.length_drop, List.length_drop]; omega
  · refine ⟨fun h => absurd h hu, fun _ => ?_⟩
    rw [toUcs2_bad hu]
    rfl

theorem foldlM_wr {α : Type} {f : ViOut → α → Res ViOut} {enc : α → Bytes} {P : α → Prop} :
    ∀ (l : List α) (acc tail : Bytes), (∀ a ∈ l, ∀ acc tail : Bytes, (enc a).length ≤ tail.length → acc.length + tail.length < 4294967296 →
      Wr (P a) (f (vst acc tail) a) (vst (acc ++ enc a) (tail.drop (enc a).length))) →
    (l.flatMap enc).length ≤ tail.length → acc.length + tail.length < 4294967296 →
    Wr (∀ a ∈ l, P a) (l.foldlM f (vst acc tail)) (vst (acc ++ l.flatMap enc) (tail.drop (l.flatMap enc).length))
  | [], acc, tail, _, _, _ => by
    refine Wr.of_ok (fun a ha => by cases ha) ?_
    rw [List.flatMap_nil, List.append_nil]; rfl
  | a :: l, acc, tail, hf, h, hl => by
    rw [List.foldlM_cons]
    rw [List.flatMap_cons, List.length_append] at h
    have h1 := hf a (by simp) acc tail (by omega) hl
    have h2 := foldlM_wr l (acc ++ enc a) (tail.drop (enc a).length) (fun b hb => hf b (by simp [hb])) (by rw [List.length_drop]; omega)
      (by rw [List.length_drop, List.length_append]; omega)
    rw [vst_drop, ← List.flatMap_cons] at h2
    refine (Wr.bind h1 h2).mono ?_
    simp

/-- The length of a block is written afterwards. -/
theorem viSetLen_st {acc body tail : Bytes} {v t : Nat} (hl : acc.length + (6 + body.length) + tail.length < 4294967296) :
    viSetLen (vst (acc ++ (viHdr 0 v t ++ body)) tail) acc.length = .ok (vst (acc ++ (viHdr (6 + body.length) v t ++ body)) tail) := by
  unfold viSetLen vst
  dsimp only
  rw [show acc ++ (viHdr 0 v t ++ body) ++ tail = acc ++ (leBytes 2 0 ++ (leBytes 2 v ++ leBytes 2 t ++ body ++ tail)) by
    simp only [viHdr, List.append_assoc]]
  rw [writeAt_append rfl (by simp only [List.length_append, leBytes_length]; omega), ok_bind]
  congr 1
  rw [leBytes_length, List.drop_left' (by rw [leBytes_length])]
  have e : leBytes 2 (w16 (sub32 (acc ++ (viHdr 0 v t ++ body)).length (w32 (acc.length + 6)) + 6)) = leBytes 2 (6 + body.length) := by
    rw [List.length_append, List.length_append, viHdr_length]
    have e1 : sub32 (acc.length + (6 + body.length)) (w32 (acc.length + 6)) = body.length := by
      unfold sub32 w32; omega
    rw [e1, w16, show (65536 : Nat) = 256 ^ 2 from rfl, leBytes_mod]
    congr 1; omega
  rw [e]
  congr 1
  · simp only [viHdr, List.append_assoc]
  · simp only [List.length_append, viHdr_length]

theorem viTableB_length (x : WStr × StrMap) : (viTableB x).length = 6 + ((viKeyB x.1).length + (x.2.flatMap viStrB).length) := by
  unfold viTableB
  rw [List.length_append, viHdr_length, List.length_append]

theorem viPutTable_wr {acc tail : Bytes} {x : WStr × StrMap} (h : (viTableB x).length ≤ tail.length)
    (hl : acc.length + tail.length < 4294967296) :
    Wr (UcsStr x.1 ∧ ∀ y ∈ x.2, UcsStr y.1 ∧ UcsStr y.2) (viPutTable (vst acc tail) x)
      (vst (acc ++ viTableB x) (tail.drop (viTableB x).length)) := by
  rw [viTableB_length] at h
  unfold viPutTable
  rw [viPut_st (by rw [viHdr_length]; omega) hl, ok_bind, viHdr_length]
  refine Wr.bind (viPutKey_wr (by rw [List.length_drop]; omega) (by rw [List.length_drop, List.length_append, viHdr_length]; omega)) ?_
  have h2 := foldlM_wr (f := viPutString) (enc := viStrB) (P := fun y => UcsStr y.1 ∧ UcsStr y.2) x.2 (acc ++ viHdr 0 0 1 ++ viKeyB x.1)
    ((tail.drop 6).drop (viKeyB x.1).length) (fun a _ acc tail h hl => viPutString_wr h hl) (by simp only [List.length_drop]; omega)
    (by simp only [List.length_drop, List.length_append, viHdr_length]; omega)
  refine (Wr.bind h2 (c' := True) (Wr.of_ok trivial ?_)).mono (by simp)
  rw [show (vst acc tail).2 = acc.length from rfl]
  rw [show acc ++ viHdr 0 0 1 ++ viKeyB x.1 ++ x.2.flatMap viStrB = acc ++ (viHdr 0 0 1 ++ (viKeyB x.1 ++ x.2.flatMap viStrB)) by
    simp only [List.append_assoc]]
  rw [viSetLen_st (by simp only [List.length_drop, List.length_append]; omega)]
  rw [List.drop_drop, List.drop_drop, viTableB_length]
  rfl

theorem viPutStrings_wr {acc tail : Bytes} {ss : LangMap} (h : (viStringsB ss).length ≤ tail.length)
    (hl : acc.length + tail.length < 4294967296) :
    Wr (∀ t ∈ ss, UcsStr t.1 ∧ ∀ y ∈ t.2, UcsStr y.1 ∧ UcsStr y.2) (viPutStrings (vst acc tail) ss)
      (vst (acc ++ viStringsB ss) (tail.drop (viStringsB ss).length)) := by
  unfold viPutStrings
  unfold viStringsB at h ⊢
  by_cases hs : ss = []
  · subst hs
    rw [if_pos rfl, if_pos rfl, List.append_nil]
    exact Wr.of_ok (fun a ha => by cases ha) rfl
  rw [if_neg hs] at h ⊢
  rw [if_neg hs]
  generalize encUnits keyStrings ++ zeros 2 = K at h ⊢
  rw [List.length_append, viHdr_length, List.length_append] at h
  rw [viPut_st (by rw [viHdr_length]; omega) hl, ok_bind, viHdr_length, viPut_st (by rw [List.length_drop]; omega)
    (by rw [List.length_drop, List.length_append, viHdr_length]; omega), ok_bind]
  have h2 := foldlM_wr (f := viPutTable) (enc := viTableB) (P := fun x => UcsStr x.1 ∧ ∀ y ∈ x.2, UcsStr y.1 ∧ UcsStr y.2) ss
    (acc ++ viHdr 0 0 1 ++ K) ((tail.drop 6).drop K.length) (fun a _ acc tail h hl => viPutTable_wr h hl)
    (by simp only [List.length_drop]; omega)
    (by simp only [List.length_drop, List.length_append, viHdr_length]; omega)
  refine (Wr.bind h2 (c' := True) (Wr.of_ok trivial ?_)).mono (by simp)
  rw [show (vst acc tail).2 = acc.length from rfl]
  rw [show acc ++ viHdr 0 0 1 ++ K ++ ss.flatMap viTableB = acc ++ (viHdr 0 0 1 ++ (K ++ ss.flatMap viTableB)) by
    simp only [List.append_assoc]]
  rw [viSetLen_st (by simp only [List.length_drop, List.length_append]; omega)]
  rw [List.drop_drop, List.drop_drop]
  simp only [List.length_append, viHdr_length]

theorem viTransB1_length (ts : TransMap) : (viTransB1 ts).length = 32 + 4 * ts.length := by
  have h : ∀ l : TransMap, (l.flatMap viPairB).length = 4 * l.length := by
    intro l
    induction l with
    | nil => rfl
    | cons a l ih => rw [List.flatMap_cons, List.length_append, ih, viPairB]; simp only [List.length_append, leBytes_length, List.length_cons]; omega
  unfold viTransB1
  rw [List.length_append, viHdr_length, List.length_append, h]
  rw [show (encUnits keyTrans ++ zeros 4).length = 26 from rfl]
  omega

theorem viTransB_length (ts : TransMap) : (viTransB ts).length = if ts = [] then 0 else 64 + 4 * ts.length := by
  unfold viTransB
  split
  · rfl
  · rw [List.length_append, viHdr_length, List.length_append, viTransB1_length, show (encUnits keyVar ++ zeros 4).length = 26 from rfl]
    omega

theorem viPutPair_wr {acc tail : Bytes} {x : Nat × Nat} (h : (viPairB x).length ≤ tail.length)
    (hl : acc.length + tail.length < 4294967296) :
    Wr True (viPutPair (vst acc tail) x) (vst (acc ++ viPairB x) (tail.drop (viPairB x).length)) := by
  refine Wr.of_ok trivial ?_
  rw [viPairB, List.length_append, leBytes_length, leBytes_length] at h
  unfold viPutPair
  rw [viPut_st (by rw [leBytes_length]; omega) hl, ok_bind, viPut_st (by rw [leBytes_length, List.length_drop, leBytes_length]; omega)
    (by rw [List.length_append, List.length_drop, leBytes_length]; omega), vst_drop]
  rfl

/-- A number inside of what was written. -/
theorem writeAt_st {acc tail a b : Bytes} {o : Nat} {x : Nat} (ho : o = (acc ++ a).length) {y : Nat} :
    writeAt (vst (acc ++ (a ++ (leBytes 2 x ++ b))) tail).1 o (leBytes 2 y) = .ok (vst (acc ++ (a ++ (leBytes 2 y ++ b))) tail).1 := by
  unfold vst
  dsimp only
  rw [show acc ++ (a ++ (leBytes 2 x ++ b)) ++ tail = (acc ++ a) ++ (leBytes 2 x ++ (b ++ tail)) by simp only [List.append_assoc]]
  rw [writeAt_append ho (by simp only [List.length_append, leBytes_length]; omega)]
  rw [leBytes_length, List.drop_left' (by rw [leBytes_length])]
  simp only [List.append_assoc]

theorem viPutTrans_wr {acc tail : Bytes} {ts : TransMap} (h : (viTransB ts).length ≤ tail.length)
    (hl : acc.length + tail.length < 4294967296) :
    viPutTrans (vst acc tail) ts = .ok (vst (acc ++ viTransB ts) (tail.drop (viTransB ts).length)) := by
  have hp : ∀ l : TransMap, (l.flatMap viPairB).length = 4 * l.length := by
    intro l
    have := viTransB1_length l
    unfold viTransB1 at this
    rw [List.length_append, viHdr_length, List.length_append, show (encUnits keyTrans ++ zeros 4).length = 26 from rfl] at this
    omega
  have hlen := viTransB_length ts
  unfold viPutTrans
  by_cases hs : ts = []
  · subst hs
    rw [if_pos rfl]
    show _ = Except.ok (vst (acc ++ []) tail)
    rw [List.append_nil]
  rw [if_neg hs] at hlen ⊢
  have hK : (encUnits keyVar ++ zeros 4).length = 26 := rfl
  have hT : (encUnits keyTrans ++ zeros 4).length = 26 := rfl
  unfold viTransB viTransB1 at hlen h ⊢
  rw [if_neg hs] at hlen h ⊢
  generalize encUnits keyVar ++ zeros 4 = K at hlen h hK ⊢
  generalize encUnits keyTrans ++ zeros 4 = T at hlen h hT ⊢
  rw [hlen] at h ⊢
  rw [viPut_st (by rw [viHdr_length]; omega) hl, ok_bind, viHdr_length, viPut_st (by rw [List.length_drop]; omega)
    (by rw [List.length_drop, List.length_append, viHdr_length]; omega), ok_bind, viPut_st (by rw [viHdr_length, List.length_drop, List.length_drop]; omega)
    (by simp only [List.length_drop, List.length_append, viHdr_length]; omega), ok_bind, viPut_st (by simp only [List.length_drop, viHdr_length]; omega)
    (by simp only [List.length_drop, List.length_append, viHdr_length]; omega), ok_bind]
  have e : (vst acc tail).2 = acc.length := rfl
  have e2 : (vst (acc ++ viHdr 0 0 1 ++ K) ((tail.drop 6).drop K.length)).2 = (acc ++ (viHdr 0 0 1 ++ K)).length := by
    rw [← List.append_assoc]; rfl
  rw [e, e2]
  have e3 : acc ++ viHdr 0 0 1 ++ K ++ viHdr 0 0 0 ++ T =
    (acc ++ (viHdr 0 0 1 ++ K)) ++ (leBytes 2 0 ++ (leBytes 2 0 ++ (leBytes 2 0 ++ T))) := by simp only [viHdr, List.append_assoc]
  rw [e3, writeAt_st (by rw [List.length_append (bs := leBytes 2 0), leBytes_length]), ok_bind]
  have e4 : leBytes 2 (w16 (4 * ts.length)) = leBytes 2 (4 * ts.length) := by
    rw [w16, show (65536 : Nat) = 256 ^ 2 from rfl, leBytes_mod]
  rw [e4]
  have e5 : ∀ t : Bytes, ((vst ((acc ++ (viHdr 0 0 1 ++ K)) ++ (leBytes 2 0 ++ (leBytes 2 (4 * ts.length) ++ (leBytes 2 0 ++ T)))) t).1,
      (vst ((acc ++ (viHdr 0 0 1 ++ K)) ++ (leBytes 2 0 ++ (leBytes 2 0 ++ (leBytes 2 0 ++ T)))) t).2) =
      vst ((acc ++ (viHdr 0 0 1 ++ K)) ++ (viHdr 0 (4 * ts.length) 0 ++ T)) t := by
    intro t
    unfold vst
    simp only [List.length_append, leBytes_length, viHdr_length, Prod.mk.injEq]
    refine ⟨?_, by omega⟩
    simp only [viHdr, List.append_assoc]
  rw [e5]
  have h2 := (foldlM_wr (f := viPutPair) (enc := viPairB) (P := fun _ => True) ts ((acc ++ (viHdr 0 0 1 ++ K)) ++ (viHdr 0 (4 * ts.length) 0 ++ T))
    ((((tail.drop 6).drop K.length).drop (viHdr 0 0 0).length).drop T.length) (fun a _ acc tail h hl => viPutPair_wr h hl)
    (by rw [hp]; simp only [List.length_drop, viHdr_length]; omega)
    (by simp only [List.length_drop, List.length_append, viHdr_length]; omega)).1 (fun _ _ => trivial)
  rw [h2, ok_bind]
  rw [show acc ++ (viHdr 0 0 1 ++ K) ++ (viHdr 0 (4 * ts.length) 0 ++ T) ++ ts.flatMap viPairB =
    acc ++ (viHdr 0 0 1 ++ K) ++ (viHdr 0 (4 * ts.length) 0 ++ (T ++ ts.flatMap viPairB)) by simp only [List.append_assoc]]
  rw [viSetLen_st (by simp only [List.length_drop, List.length_append, viHdr_length, hp]; omega), ok_bind]
  rw [show ∀ X : Bytes, acc ++ (viHdr 0 0 1 ++ K) ++ X = acc ++ (viHdr 0 0 1 ++ (K ++ X)) by intro X; simp only [List.append_assoc]]
  rw [viSetLen_st (by simp only [List.length_drop, List.length_append, viHdr_length, hp]; omega)]
  rw [List.drop_drop, List.drop_drop, List.drop_drop, List.drop_drop, hp, viHdr_length, hK, hT]
  rw [show 6 + (26 + (6 + (26 + 4 * ts.length))) = 64 + 4 * ts.length by omega]

/-! ### The whole -/

theorem foldl_w32 {α : Type} (f : α → Nat) (g : α → Nat) : ∀ (l : List α) (n : Nat), n + (l.map g).sum < 4294967296 →
    (∀ a ∈ l, g a < 4294967296 → f a = g a) → l.foldl (fun n y => w32 (n + f y)) n = n + (l.map g).sum
  | [], n, _, _ => by simp
  | a :: l, n, h, hf => by
    rw [List.map_cons, List.sum_cons] at h ⊢
    rw [List.foldl_cons, hf a (by simp) (by omega), w32, Nat.mod_eq_of_lt (by omega),
      foldl_w32 f g l _ (by omega) (fun b hb => hf b (by simp [hb]))]
    omega

theorem alignUp_4 {x : Nat} (h : ceilTo x 4 < 4294967296) : alignUp (w32 x) 4 = ceilTo x 4 := by
  have hx : x < 4294967296 := Nat.lt_of_le_of_lt (ceilTo_ge (by decide)) h
  rw [w32, Nat.mod_eq_of_lt hx, alignUp_of_le pow2_4 hx h]

theorem viStrSize_eq {x : WStr × WStr} (h : verStrSize x < 4294967296) : viStrSize x = verStrSize x := by
  unfold verStrSize at h ⊢
  unfold viStrSize
  rw [Nat.mul_comm (x.1.length + 1), Nat.mul_comm (x.2.length + 1), alignUp_4 (by omega), alignUp_4 (by omega), w32, Nat.mod_eq_of_lt h]

theorem viTableSize_eq {x : WStr × StrMap} (h : verTableSize x < 4294967296) : viTableSize x = verTableSize x := by
  unfold verTableSize at h ⊢
  unfold viTableSize
  rw [Nat.mul_comm (x.1.length + 1), alignUp_4 (by omega)]
  exact foldl_w32 _ _ _ _ h fun a _ => viStrSize_eq

theorem viTotal_eq {ss : LangMap} {ts : TransMap} (h : verSize ss ts < 4294967296) : viTotal ss ts = verSize ss ts := by
  unfold verSize at h ⊢
  have e1 : viStringsSize ss = if ss = [] then 0 else 36 + (ss.map verTableSize).sum := by
    unfold viStringsSize
    by_cases hs : ss = []
    · rw [if_pos hs, if_pos hs]
    · rw [if_neg hs] at h ⊢
      rw [if_neg hs]
      exact foldl_w32 _ _ _ _ (by omega) fun a _ => viTableSize_eq
  have e2 : viTransSize ts = if ts = [] then 0 else 64 + 4 * ts.length := by
    unfold viTransSize
    by_cases hs : ts = []
    · rw [if_pos hs, if_pos hs]
    · rw [if_neg hs] at h ⊢
      rw [if_neg hs, w32, Nat.mod_eq_of_lt (by omega)]
  unfold viTotal
  rw [e1, e2, w32, w32, Nat.mod_eq_of_lt (a := 92 + _) (by omega), Nat.mod_eq_of_lt h]

theorem viStrB_le (x : WStr × WStr) : (viStrB x).length ≤ verStrSize x := by
  rw [viStrB_length, verStrSize]
  have hv : w16 (x.2.length + 1) ≤ x.2.length + 1 := Nat.mod_le _ _
  have := ceilTo_mono (a := 4) (by decide) (show w16 (x.2.length + 1) * 2 ≤ 2 * (x.2.length + 1) by omega)
  omega

theorem flatMap_le {α : Type} {f : α → Bytes} {g : α → Nat} : ∀ (l : List α), (∀ a ∈ l, (f a).length ≤ g a) → (l.flatMap f).length ≤ (l.map g).sum
  | [], _ => by simp
  | a :: l, h => by
    rw [List.flatMap_cons, List.length_append, List.map_cons, List.sum_cons]
    have := flatMap_le l (fun b hb => h b (by simp [hb]))
    have := h a (by simp)
    omega

theorem flatMap_eq {α : Type} {f : α → Bytes} {g : α → Nat} : ∀ (l : List α), (∀ a ∈ l, (f a).length = g a) → (l.flatMap f).length = (l.map g).sum
  | [], _ => by simp
  | a :: l, h => by
    rw [List.flatMap_cons, List.length_append, List.map_cons, List.sum_cons, flatMap_eq l (fun b hb => h b (by simp [hb])), h a (by simp)]

theorem viTableB_le (x : WStr × StrMap) : (viTableB x).length ≤ verTableSize x := by
  rw [viTableB_length, verTableSize, ← viKeyB_ceil]
  have := flatMap_le (f := viStrB) (g := verStrSize) x.2 (fun a _ => viStrB_le a)
  omega

theorem viStringsB_le (ss : LangMap) : (viStringsB ss).length ≤ if ss = [] then 0 else 36 + (ss.map verTableSize).sum := by
  unfold viStringsB
  split
  · exact Nat.le_refl _
  · rw [List.length_append, viHdr_length, List.length_append, show (encUnits keyStrings ++ zeros 2).length = 30 from rfl]
    have := flatMap_le (f := viTableB) (g := verTableSize) ss (fun a _ => viTableB_le a)
    omega

theorem viFixedBytes_length (f : FileVer) : (viFixedBytes f).length = 52 := by
  simp [viFixedBytes]

/-- What the writer does: it writes the blocks one after the other, or fails because of a string that cannot be converted. -/
theorem viWrite_eq (f : FileVer) (ss : LangMap) (ts : TransMap) (h : verSize ss ts < 4294967296) :
    ((∀ t ∈ ss, UcsStr t.1 ∧ ∀ y ∈ t.2, UcsStr y.1 ∧ UcsStr y.2) →
      viWrite f ss ts = .ok (viRootB f (verSize ss ts) ++ viStringsB ss ++ viTransB ts ++
        zeros (verSize ss ts - (92 + (viStringsB ss).length + (viTransB ts).length)))) ∧
    (¬ (∀ t ∈ ss, UcsStr t.1 ∧ ∀ y ∈ t.2, UcsStr y.1 ∧ UcsStr y.2) → viWrite f ss ts = throwE .encodingConvertionError) := by
  have hs := viStringsB_le ss
  have ht := viTransB_length ts
  have hsum : 92 + (viStringsB ss).length + (viTransB ts).length ≤ verSize ss ts := by unfold verSize; omega
  have hK : (encUnits keyRoot ++ zeros 2).length = 32 := rfl
  have hr : (viRootB f (verSize ss ts)).length = 92 := by
    unfold viRootB
    rw [List.length_append, List.length_append, List.length_append, viHdr_length, hK, zeros_length, viFixedBytes_length]
  unfold viWrite
  dsimp only
  rw [viTotal_eq h]
  unfold viRootB at hr ⊢
  have e : leBytes 2 (w16 (verSize ss ts)) = leBytes 2 (verSize ss ts) := by
    rw [w16, show (65536 : Nat) = 256 ^ 2 from rfl, leBytes_mod]
  have e' : viHdr (w16 (verSize ss ts)) 52 0 = viHdr (verSize ss ts) 52 0 := by unfold viHdr; rw [e]
  rw [e']
  generalize encUnits keyRoot ++ zeros 2 = K at hK hr ⊢
  rw [show ((zeros (verSize ss ts), 0) : ViOut) = vst [] (zeros (verSize ss ts)) from rfl]
  rw [viPut_st (by rw [viHdr_length, zeros_length]; omega) (by rw [zeros_length]; simpa using h), ok_bind, List.nil_append]
  rw [viPut_st (by rw [List.length_drop, viHdr_length, zeros_length]; omega)
    (by rw [List.length_drop, viHdr_length, zeros_length]; omega), ok_bind]
  rw [viPut_st (by rw [List.length_drop, List.length_drop, viHdr_length, zeros_length, zeros_length]; omega)
    (by rw [List.length_append, List.length_drop, List.length_drop, viHdr_length, zeros_length]; omega), ok_bind]
  rw [viPut_st (by rw [viFixedBytes_length, List.length_drop, List.length_drop, List.length_drop, viHdr_length, zeros_length, zeros_length]; omega)
    (by rw [List.length_append, List.length_append, List.length_drop, List.length_drop, List.length_drop, viHdr_length, zeros_length, zeros_length]; omega), ok_bind]
  rw [List.drop_drop, List.drop_drop, List.drop_drop]
  have el : (viHdr (verSize ss ts) 52 0).length + (K.length + ((zeros 2).length + (viFixedBytes f).length)) = 92 := by
    rw [viHdr_length, hK, zeros_length, viFixedBytes_length]
  rw [el]
  generalize viHdr (verSize ss ts) 52 0 ++ K ++ zeros 2 ++ viFixedBytes f = R at hr ⊢
  have hw := viPutStrings_wr (acc := R) (tail := (zeros (verSize ss ts)).drop 92) (ss := ss) (by rw [List.length_drop, zeros_length]; omega)
    (by rw [List.length_drop, zeros_length]; omega)
  constructor
  · intro hu
    rw [hw.1 hu, ok_bind, viPutTrans_wr (by rw [List.length_drop, List.length_drop, zeros_length]; omega)
      (by rw [List.length_append, List.length_drop, List.length_drop, zeros_length]; omega), ok_bind]
    unfold vst zeros
    rw [List.drop_drop, List.drop_drop, List.drop_replicate]
    rw [Nat.add_assoc]
  · intro hu
    rw [hw.2 hu]
    rfl

end PE
