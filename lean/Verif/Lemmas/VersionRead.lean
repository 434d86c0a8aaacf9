/-
Lemmas for version information: what the reader finds in the bytes of the writer.
-/
import Verif.Lemmas.VersionInfo

namespace PE

/-! ### Strings in memory -/

theorem decUnits_append {w : WStr} (h : ∀ c ∈ w, c < 65536) (r : Bytes) : decUnits (encUnits w ++ r) = w ++ decUnits r := by
  induction w with
  | nil => rfl
  | cons c w ih =>
    have e : encUnits (c :: w) ++ r = UInt8.ofNat c :: UInt8.ofNat (c / 256) :: (encUnits w ++ r) := rfl
    rw [e, decUnits, ih (fun x hx => h x (List.mem_cons_of_mem _ hx)),
      show [UInt8.ofNat c, UInt8.ofNat (c / 256)] = leBytes 2 c from rfl, fromLE_leBytes, Nat.mod_eq_of_lt (h c (by simp))]
    rfl

theorem decUnits_zeros (r : Bytes) : decUnits (zeros 2 ++ r) = 0 :: decUnits r := rfl

theorem takeWhile_ne {w r : WStr} (h : 0 ∉ w) : (w ++ 0 :: r).takeWhile (· ≠ 0) = w := by
  rw [List.takeWhile_append_of_pos (by intro a ha; rw [decide_eq_true_eq]; rintro rfl; exact h ha)]
  simp

theorem viKey_at {pre h6 rest : Bytes} {k : WStr} (hh : h6.length = 6) (hk : KeyOk k) :
    viKey (pre ++ (h6 ++ (encUnits k ++ (zeros 2 ++ rest)))) pre.length = .ok k := by
  unfold viKey
  dsimp only
  have e : (pre ++ (h6 ++ (encUnits k ++ (zeros 2 ++ rest)))).drop (pre.length + 6) = encUnits k ++ (zeros 2 ++ rest) := by
    rw [← List.drop_drop, List.drop_left, List.drop_left' hh]
  rw [e, decUnits_append hk.1.lt, decUnits_zeros, throwIf_neg, ok_bind, takeWhile_ne hk.2]
  intro h
  rw [List.all_eq_true] at h
  have := h 0 (by simp)
  simp at this

theorem stripWide_end {v : WStr} (h : v.getLast? ≠ some 0) : stripWide (v ++ [0]) = v := by
  unfold stripWide
  rw [List.reverse_append, List.reverse_singleton, List.singleton_append, List.dropWhile_cons_of_pos (by rfl)]
  cases e : v.reverse with
  | nil => rw [List.reverse_eq_nil_iff] at e; subst e; rfl
  | cons a l =>
    have ha : a ≠ 0 := by
      rintro rfl
      have : v = l.reverse ++ [0] := by rw [← List.reverse_reverse v, e, List.reverse_cons]
      apply h; rw [this]; simp
    rw [List.dropWhile_cons_of_neg (by simpa using ha), ← e, List.reverse_reverse]

/-! ### Positions -/

theorem alignUp16_eq {x : Nat} (h : x ≤ 65532) : alignUp16 x 4 = ceilTo x 4 := by
  have := alignUpT_eq (w := 16) (k := 2) (x := x) (by decide) (by decide) (by omega)
  unfold alignUp16
  rw [show (65536 : Nat) = 2 ^ 16 from rfl, show (4 : Nat) = 2 ^ 2 from rfl, this]
  unfold ceilTo
  split
  · rfl
  · rw [Nat.mod_eq_of_lt (by omega)]

theorem alignUp16_wrap {x : Nat} (h : 65533 ≤ x) (h' : x < 65536) : alignUp16 x 4 = 0 := by
  have e := alignUpT_eq (w := 16) (k := 2) (x := x) (by decide) (by decide) h'
  unfold alignUp16
  rw [show (65536 : Nat) = 2 ^ 16 from rfl, show (4 : Nat) = 2 ^ 2 from rfl, e]
  rw [if_neg (by omega)]
  omega

theorem ceil4_mul {b : Nat} (hb : b % 4 = 0) (x : Nat) : ceilTo (b + x) 4 = b + ceilTo x 4 := by
  rw [ceil4, ceil4]; omega

theorem viValuePos_eq {base : Nat} {k : WStr} (hb : base % 4 = 0) (h : base + ceilTo (6 + 2 * (k.length + 1)) 4 < 4294967296) :
    viValuePos base k = .ok (base + ceilTo (6 + 2 * (k.length + 1)) 4) := by
  have hc := ceil4 (6 + 2 * (k.length + 1))
  unfold viValuePos
  dsimp only
  have e1 : w32 k.length = k.length := Nat.mod_eq_of_lt (by omega)
  have e2 : w32 ((k.length + 1) * 2) = 2 * (k.length + 1) := by rw [w32, Nat.mod_eq_of_lt (by omega)]; omega
  rw [e1, e2, show 6 + base + 2 * (k.length + 1) = base + (6 + 2 * (k.length + 1)) by omega,
    alignUp_4 (by rw [ceil4_mul hb]; exact h), ceil4_mul hb, throwIf_neg (by omega), ok_bind]

theorem viChildPos_eq {base vlen : Nat} {k : WStr} (hb : base % 4 = 0) (hv : vlen < 65536)
    (h : base + ceilTo (6 + 2 * (k.length + 1)) 4 + ceilTo vlen 4 < 4294967296) :
    viChildPos base vlen k = .ok (base + ceilTo (6 + 2 * (k.length + 1)) 4 + ceilTo vlen 4) := by
  have hc := ceil4 (6 + 2 * (k.length + 1))
  have hc2 := ceil4 vlen
  unfold viChildPos
  dsimp only
  have e1 : w32 k.length = k.length := Nat.mod_eq_of_lt (by omega)
  have e2 : w32 ((k.length + 1) * 2) = 2 * (k.length + 1) := by rw [w32, Nat.mod_eq_of_lt (by omega)]; omega
  rw [e1, e2, show 6 + base + 2 * (k.length + 1) = base + (6 + 2 * (k.length + 1)) by omega,
    alignUp_4 (by rw [ceil4_mul hb]; omega), ceil4_mul hb, alignUp_of_le pow2_4 (by omega) (by omega), w32, Nat.mod_eq_of_lt (by omega),
    throwIf_neg (by omega), ok_bind]

/-! ### Walking over blocks -/

theorem viWalk_all {α σ : Type} {d : Bytes} {base len : Nat} {body : Nat → WStr → σ → Res σ} (enc : α → Bytes) (key : α → WStr)
    (f : α → σ → σ) (hd : d.length < 65536) :
    ∀ (l : List α) (pre post : Bytes) (s : σ), d = pre ++ (l.flatMap enc ++ post) → base ≤ pre.length →
      pre.length + (l.flatMap enc).length = base + len →
      (∀ a ∈ l, ∃ n v t rest, enc a = viHdr n v t ++ (encUnits (key a) ++ (zeros 2 ++ rest)) ∧ 0 < n ∧ n ≤ (enc a).length ∧
        ceilTo n 4 = (enc a).length ∧ KeyOk (key a)) →
      (∀ a ∈ l, ∀ (pre post : Bytes) (s : σ), d = pre ++ (enc a ++ post) → pre.length % 4 = 0 → body pre.length (key a) s = .ok (f a s)) →
      pre.length % 4 = 0 →
      viWalk d base len body pre.length s = .ok (l.foldl (fun s a => f a s) s)
  | [], pre, post, s, hdd, hb, hl, _, _, _ => by
    rw [viWalk, if_neg]
    · rfl
    · rw [List.flatMap_nil, List.length_nil] at hl
      rw [hdd, List.length_append] at hd
      unfold sub32
      omega
  | a :: l, pre, post, s, hdd, hb, hl, hform, hbody, h4 => by
    obtain ⟨n, v, t, rest, he, hn, hn', hc, hk⟩ := hform a (by simp)
    rw [List.flatMap_cons] at hl hdd
    rw [List.append_assoc] at hdd
    rw [List.length_append] at hl
    have hlen : (enc a).length = 6 + (2 * (key a).length + (2 + rest.length)) := by
      rw [he, List.length_append, viHdr_length, List.length_append, encUnits_length, List.length_append, zeros_length]
    have hdl : d.length = pre.length + ((enc a).length + ((l.flatMap enc).length + post.length)) := by
      rw [hdd]; simp only [List.length_append]
    have hc4 : (enc a).length % 4 = 0 := by rw [← hc, ceil4]; omega
    have hrd : rd 2 d pre.length = n := by
      rw [hdd, rd_skip (Nat.le_refl _), Nat.sub_self, he, viHdr]
      simp only [List.append_assoc]
      rw [rd_here, Nat.mod_eq_of_lt (by omega)]
    rw [viWalk, if_pos (by unfold sub32; omega), throwIf_neg (by omega), ok_bind, readU_ok (by omega), ok_bind, hrd, throwIf_neg (by omega), ok_bind]
    have hkey : viKey d pre.length = .ok (key a) := by
      rw [hdd, he]
      simp only [List.append_assoc]
      exact viKey_at (viHdr_length n v t) hk
    rw [hkey, ok_bind, hbody a (by simp) pre _ s hdd h4, ok_bind, alignUp16_eq (by omega), hc]
    have e : w32 (pre.length + (enc a).length) = (pre ++ enc a).length := by
      rw [w32, Nat.mod_eq_of_lt (by omega), List.length_append]
    rw [e, dif_pos (by rw [List.length_append]; unfold sub32; omega)]
    exact viWalk_all enc key f hd l (pre ++ enc a) post _ (by rw [hdd, List.append_assoc]) (by rw [List.length_append]; omega)
      (by rw [List.length_append]; omega) (fun b hb => hform b (by simp [hb])) (fun b hb => hbody b (by simp [hb]))
      (by rw [List.length_append]; omega)

/-! ### One string -/

theorem viStrB_form {x : WStr × WStr} (hv : x.2.length + 1 < 65536) (h : (viStrB x).length < 65536) (hk : KeyOk x.1) :
    ∃ n v t rest, viStrB x = viHdr n v t ++ (encUnits x.1 ++ (zeros 2 ++ rest)) ∧ 0 < n ∧ n ≤ (viStrB x).length ∧
      ceilTo n 4 = (viStrB x).length ∧ KeyOk x.1 := by
  have hl := viStrB_length x
  have e : w16 (x.2.length + 1) = x.2.length + 1 := Nat.mod_eq_of_lt hv
  rw [e] at hl
  have c1 := ceil4 (6 + 2 * (x.1.length + 1))
  have c2 := ceil4 ((x.2.length + 1) * 2)
  refine ⟨ceilTo (6 + 2 * (x.1.length + 1)) 4 + (x.2.length + 1) * 2, x.2.length + 1, 1,
    viPadB (6 + 2 * (x.1.length + 1)) ++ ((encUnits x.2 ++ zeros 2).take ((x.2.length + 1) * 2) ++ viPadB ((x.2.length + 1) * 2)), ?_, ?_, ?_, ?_, hk⟩
  · unfold viStrB viKeyB
    rw [e]
    have e2 : w16 (ceilTo (6 + 2 * (x.1.length + 1)) 4 + (x.2.length + 1) * 2) = ceilTo (6 + 2 * (x.1.length + 1)) 4 + (x.2.length + 1) * 2 :=
      Nat.mod_eq_of_lt (by omega)
    rw [e2]
    simp only [List.append_assoc]
  · omega
  · omega
  · rw [ceil4_mul (by omega), hl]

theorem rd2_hdr (pre rest : Bytes) (n v t : Nat) : rd 2 (pre ++ (viHdr n v t ++ rest)) (pre.length + 2) = v % 65536 := by
  rw [rd_skip (by omega), show pre.length + 2 - pre.length = 2 by omega, viHdr]
  simp only [List.append_assoc]
  rw [rd_leBytes_skip (Nat.le_refl 2), Nat.sub_self, rd_here]

theorem rd0_hdr (pre rest : Bytes) (n v t : Nat) : rd 2 (pre ++ (viHdr n v t ++ rest)) pre.length = n % 65536 := by
  rw [rd_skip (Nat.le_refl _), Nat.sub_self, viHdr]
  simp only [List.append_assoc]
  rw [rd_here]

theorem viString_at {d pre post : Bytes} {x : WStr × WStr} {m : StrMap} (hv : x.2.length + 1 < 65536) (hd : d.length < 65536)
    (hdd : d = pre ++ (viStrB x ++ post)) (h4 : pre.length % 4 = 0) (hk : KeyOk x.1) (hx : ValueOk x.2) :
    viString d pre.length x.1 m = .ok (mapAdd wlt x.1 x.2 m) := by
  have hl := viStrB_length x
  have e : w16 (x.2.length + 1) = x.2.length + 1 := Nat.mod_eq_of_lt hv
  rw [e] at hl
  have c1 := ceil4 (6 + 2 * (x.1.length + 1))
  have c2 := ceil4 ((x.2.length + 1) * 2)
  have hdl : d.length = pre.length + ((viStrB x).length + post.length) := by
    rw [hdd]; simp only [List.length_append]
  have ev : (encUnits x.2 ++ zeros 2).take ((x.2.length + 1) * 2) = encUnits x.2 ++ zeros 2 := by
    rw [List.take_of_length_le (by rw [List.length_append, encUnits_length, zeros_length]; omega)]
  unfold viString
  rw [readU_ok (by omega), ok_bind]
  have e2 : rd 2 d (pre.length + 2) = x.2.length + 1 := by
    rw [hdd]
    unfold viStrB
    simp only [List.append_assoc]
    rw [rd2_hdr, e, Nat.mod_eq_of_lt hv]
  rw [e2]
  have e3 : viValue d pre.length x.1 (x.2.length + 1) = .ok x.2 := by
    unfold viValue
    rw [if_pos (by omega), viValuePos_eq h4 (by omega), ok_bind, throwIf_neg (by unfold w32; omega), ok_bind, readN_ok (by omega), ok_bind]
    have e4 : slice d (pre.length + ceilTo (6 + 2 * (x.1.length + 1)) 4) (2 * (x.2.length + 1)) = encUnits x.2 ++ zeros 2 := by
      rw [hdd]
      unfold viStrB
      rw [e, ev]
      generalize w16 (ceilTo (6 + 2 * (x.1.length + 1)) 4 + (x.2.length + 1) * 2) = N
      have hkl : (pre ++ (viHdr N (x.2.length + 1) 1 ++ viKeyB x.1)).length = pre.length + ceilTo (6 + 2 * (x.1.length + 1)) 4 := by
        rw [List.length_append, List.length_append, viHdr_length, viKeyB_ceil]
      rw [show pre ++ (viHdr N (x.2.length + 1) 1 ++ viKeyB x.1 ++ (encUnits x.2 ++ zeros 2 ++ viPadB ((x.2.length + 1) * 2)) ++ post) =
        (pre ++ (viHdr N (x.2.length + 1) 1 ++ viKeyB x.1)) ++ ((encUnits x.2 ++ zeros 2) ++ (viPadB ((x.2.length + 1) * 2) ++ post)) by
          simp only [List.append_assoc]]
      rw [slice_append_right (by rw [hkl]; exact Nat.le_refl _), hkl, Nat.sub_self, slice_append_here]
      rw [List.length_append, encUnits_length, zeros_length]; omega
    rw [e4, ← List.append_nil (zeros 2), decUnits_append hx.1.lt, decUnits_zeros]
    exact congrArg Except.ok (stripWide_end hx.2)
  rw [e3, ok_bind, fromUcs2_ok hk.1, ok_bind, fromUcs2_ok hx.1, ok_bind]

/-! ### Maps are read in order -/

theorem mapAdd_last {κ ν : Type} [DecidableEq κ] {lt : κ → κ → Bool} (ho : StrictOrd lt) {k : κ} {v : ν} :
    ∀ {m : List (κ × ν)}, (∀ x ∈ m, lt x.1 k = true) → mapAdd lt k v m = m ++ [(k, v)]
  | [], _ => rfl
  | (k', v') :: m, h => by
    have h1 : lt k' k = true := h (k', v') (by simp)
    rw [mapAdd, if_neg, if_neg, mapAdd_last ho (fun x hx => h x (by simp [hx]))]
    · rfl
    · intro h2
      have := ho.trans _ _ _ h1 h2
      rw [ho.irrefl] at this
      cases this
    · rintro rfl
      rw [ho.irrefl] at h1
      cases h1

theorem foldl_mapAdd {κ ν : Type} [DecidableEq κ] {lt : κ → κ → Bool} (ho : StrictOrd lt) :
    ∀ (l m : List (κ × ν)), MapSorted lt (m ++ l) → l.foldl (fun s a => mapAdd lt a.1 a.2 s) m = m ++ l
  | [], m, _ => by simp
  | a :: l, m, h => by
    have h' : MapSorted lt (m ++ [a] ++ l) := by rw [List.append_assoc]; exact h
    have hm : ∀ x ∈ m, lt x.1 a.1 = true := by
      intro x hx
      exact (List.pairwise_append.mp h).2.2 x hx a (by simp)
    rw [List.foldl_cons, mapAdd_last ho hm, foldl_mapAdd ho l _ h', List.append_assoc]
    rfl

theorem wlt_ord : StrictOrd wlt := by
  refine ⟨?_, ?_, ?_⟩
  · intro a
    induction a with
    | nil => rfl
    | cons x a ih => rw [wlt, if_neg (by omega), if_pos rfl, ih]
  · intro a
    induction a with
    | nil =>
      intro b c h1 h2
      cases c with
      | nil => cases b <;> simp [wlt] at h1 h2
      | cons z c => rfl
    | cons x a ih =>
      intro b c h1 h2
      cases b with
      | nil => simp [wlt] at h1
      | cons y b =>
        cases c with
        | nil => simp [wlt] at h2
        | cons z c =>
          simp only [wlt] at h1 h2 ⊢
          by_cases hxy : x < y
          · by_cases hyz : y < z
            · rw [if_pos (by omega)]
            · rw [if_neg hyz] at h2
              by_cases e : y = z
              · rw [if_pos (by omega)]
              · rw [if_neg e] at h2; cases h2
          · rw [if_neg hxy] at h1
            by_cases e : x = y
            · rw [if_pos e] at h1
              subst e
              by_cases hyz : x < z
              · rw [if_pos hyz]
              · rw [if_neg hyz] at h2 ⊢
                by_cases e : x = z
                · rw [if_pos e] at h2 ⊢
                  exact ih _ _ h1 h2
                · rw [if_neg e] at h2; cases h2
            · rw [if_neg e] at h1; cases h1
  · intro a
    induction a with
    | nil =>
      intro b h1 h2
      cases b with
      | nil => exact absurd rfl h2
      | cons y b => simp [wlt] at h1
    | cons x a ih =>
      intro b h1 h2
      cases b with
      | nil => rfl
      | cons y b =>
        simp only [wlt] at h1 ⊢
        by_cases hxy : x < y
        · rw [if_pos hxy] at h1; cases h1
        · rw [if_neg hxy] at h1
          by_cases e : x = y
          · rw [if_pos e] at h1
            rw [if_neg (by omega), if_pos e.symm]
            exact ih b h1 (by rintro rfl; exact h2 (by rw [e]))
          · rw [if_pos (by omega)]

/-! ### Tables -/

/-- The strings of a table can be read back. -/
def TableOk (x : WStr × StrMap) : Prop :=
  KeyOk x.1 ∧ MapSorted wlt x.2 ∧ ∀ y ∈ x.2, KeyOk y.1 ∧ ValueOk y.2 ∧ y.2.length + 1 < 65536

theorem flatMap_part {α : Type} {f : α → Bytes} : ∀ {l : List α} {a : α}, a ∈ l → (f a).length ≤ (l.flatMap f).length
  | b :: l, a, h => by
    rw [List.flatMap_cons, List.length_append]
    rcases List.mem_cons.mp h with rfl | h
    · omega
    · have := flatMap_part (f := f) h
      omega

theorem flatMap_mod4 {α : Type} {f : α → Bytes} : ∀ {l : List α}, (∀ a ∈ l, (f a).length % 4 = 0) → (l.flatMap f).length % 4 = 0
  | [], _ => rfl
  | b :: l, h => by
    rw [List.flatMap_cons, List.length_append]
    have := flatMap_mod4 (f := f) (l := l) (fun a ha => h a (by simp [ha]))
    have := h b (by simp)
    omega

theorem viStrB_mod4 (x : WStr × WStr) : (viStrB x).length % 4 = 0 := by
  rw [viStrB_length, ceil4, ceil4]; omega

theorem viTableB_mod4 (x : WStr × StrMap) : (viTableB x).length % 4 = 0 := by
  rw [viTableB_length]
  have h1 := viKeyB_ceil x.1
  have h2 := flatMap_mod4 (f := viStrB) (l := x.2) (fun a _ => viStrB_mod4 a)
  rw [ceil4] at h1
  omega

theorem viTable_at {d pre post : Bytes} {x : WStr × StrMap} {m : LangMap} (hx : TableOk x) (hd : d.length < 65536)
    (hdd : d = pre ++ (viTableB x ++ post)) (h4 : pre.length % 4 = 0) :
    viTable d pre.length x.1 m = .ok (mapAdd wlt x.1 x.2 m) := by
  have hl := viTableB_length x
  have hk := viKeyB_ceil x.1
  have c1 := ceil4 (6 + 2 * (x.1.length + 1))
  have hdl : d.length = pre.length + ((viTableB x).length + post.length) := by
    rw [hdd]; simp only [List.length_append]
  unfold viTable
  rw [readU_ok (by omega), ok_bind, readU_ok (by omega), ok_bind]
  have e1 : rd 2 d pre.length = (viTableB x).length := by
    rw [hdd]
    unfold viTableB at *
    rw [List.append_assoc, rd0_hdr, Nat.mod_eq_of_lt (by rw [List.length_append]; omega)]
    rw [List.length_append (as := viHdr _ _ _), viHdr_length]
  have e2 : rd 2 d (pre.length + 2) = 0 := by
    rw [hdd, viTableB, List.append_assoc, rd2_hdr]
  rw [e1, e2, viChildPos_eq h4 (by decide) (by rw [ceilTo_zero]; omega), ceilTo_zero, Nat.add_zero, ok_bind]
  have hd2 : d = (pre ++ (viHdr (6 + (viKeyB x.1 ++ x.2.flatMap viStrB).length) 0 1 ++ viKeyB x.1)) ++ (x.2.flatMap viStrB ++ post) := by
    rw [hdd, viTableB]
    simp only [List.append_assoc]
  have hpl : (pre ++ (viHdr (6 + (viKeyB x.1 ++ x.2.flatMap viStrB).length) 0 1 ++ viKeyB x.1)).length =
      pre.length + ceilTo (6 + 2 * (x.1.length + 1)) 4 := by
    rw [List.length_append, List.length_append, viHdr_length, hk]
  rw [← hpl]
  rw [viWalk_all (f := fun a s => mapAdd wlt a.1 a.2 s) viStrB Prod.fst hd x.2 _ post [] hd2 (by rw [hpl]; omega)
    (by rw [hpl]; omega) ?_ ?_ (by rw [hpl]; omega), ok_bind, fromUcs2_ok hx.1.1, ok_bind,
    show x.2.foldl (fun s a => mapAdd wlt a.1 a.2 s) [] = x.2 from foldl_mapAdd wlt_ord x.2 [] hx.2.1]
  · intro y hy
    have := flatMap_part (f := viStrB) hy
    exact viStrB_form (hx.2.2 y hy).2.2 (by omega) (hx.2.2 y hy).1
  · intro y hy pre post s hdd h4
    exact viString_at (hx.2.2 y hy).2.2 hd hdd h4 (hx.2.2 y hy).1 (hx.2.2 y hy).2.1

theorem viTableB_form {x : WStr × StrMap} (hx : TableOk x) :
    ∃ n v t rest, viTableB x = viHdr n v t ++ (encUnits x.1 ++ (zeros 2 ++ rest)) ∧ 0 < n ∧ n ≤ (viTableB x).length ∧
      ceilTo n 4 = (viTableB x).length ∧ KeyOk x.1 := by
  have hm := viTableB_mod4 x
  refine ⟨(viTableB x).length, 0, 1, viPadB (6 + 2 * (x.1.length + 1)) ++ x.2.flatMap viStrB, ?_, ?_, Nat.le_refl _, ?_, hx.1⟩
  · rw [viTableB_length, ← List.length_append, viTableB, viKeyB]
    simp only [List.append_assoc]
  · rw [viTableB_length]; omega
  · rw [ceil4]; omega

theorem keyStrings_ok : KeyOk keyStrings := ⟨by unfold UcsStr keyStrings; decide, by decide⟩
theorem keyVar_ok : KeyOk keyVar := ⟨by unfold UcsStr keyVar; decide, by decide⟩
theorem keyTrans_ok : KeyOk keyTrans := ⟨by unfold UcsStr keyTrans; decide, by decide⟩
theorem keyRoot_ok : KeyOk keyRoot := ⟨by unfold UcsStr keyRoot; decide, by decide⟩

/-! ### StringFileInfo -/

theorem viStringsB_length {ss : LangMap} (hs : ss ≠ []) : (viStringsB ss).length = 36 + (ss.flatMap viTableB).length := by
  unfold viStringsB
  rw [if_neg hs, List.length_append, viHdr_length, List.length_append, show (encUnits keyStrings ++ zeros 2).length = 30 from rfl]
  omega

theorem viStringsB_eq {ss : LangMap} (hs : ss ≠ []) :
    viStringsB ss = viHdr (viStringsB ss).length 0 1 ++ (encUnits keyStrings ++ (zeros 2 ++ ss.flatMap viTableB)) := by
  rw [viStringsB_length hs, viStringsB, if_neg hs, List.append_assoc, List.length_append, encUnits_length, List.length_append, zeros_length]
  rw [show keyStrings.length = 14 from rfl]
  congr 2
  omega

theorem viStringsB_mod4 {ss : LangMap} : (viStringsB ss).length % 4 = 0 := by
  by_cases hs : ss = []
  · subst hs; rfl
  · rw [viStringsB_length hs]
    have h2 := flatMap_mod4 (f := viTableB) (l := ss) (fun a _ => viTableB_mod4 a)
    omega

theorem viChild_strings {d pre post : Bytes} {ss : LangMap} {m : LangMap × TransMap} (hs : ss ≠ []) (hx : ∀ x ∈ ss, TableOk x)
    (hd : d.length < 65536) (hdd : d = pre ++ (viStringsB ss ++ post)) (h4 : pre.length % 4 = 0) :
    viChild d pre.length keyStrings m = .ok (ss.foldl (fun s a => mapAdd wlt a.1 a.2 s) m.1, m.2) := by
  have hl := viStringsB_length hs
  have hdl : d.length = pre.length + ((viStringsB ss).length + post.length) := by
    rw [hdd]; simp only [List.length_append]
  have hck : ceilTo (6 + 2 * (keyStrings.length + 1)) 4 = 36 := by decide
  unfold viChild
  rw [readU_ok (by omega), ok_bind, readU_ok (by omega), ok_bind, if_pos rfl]
  have e1 : rd 2 d pre.length = (viStringsB ss).length := by
    rw [hdd, viStringsB_eq hs, List.append_assoc, rd0_hdr, Nat.mod_eq_of_lt (by omega), ← viStringsB_eq hs]
  have e2 : rd 2 d (pre.length + 2) = 0 := by
    rw [hdd, viStringsB_eq hs, List.append_assoc, rd2_hdr]
  rw [e1, e2, viChildPos_eq h4 (by decide) (by rw [ceilTo_zero, hck]; omega), ceilTo_zero, Nat.add_zero, ok_bind, hck]
  have hd2 : d = (pre ++ (viHdr (viStringsB ss).length 0 1 ++ (encUnits keyStrings ++ zeros 2))) ++ (ss.flatMap viTableB ++ post) := by
    rw [hdd]
    refine (congrArg (fun z => pre ++ (z ++ post)) (viStringsB_eq hs)).trans ?_
    simp only [List.append_assoc]
  have hpl : (pre ++ (viHdr (viStringsB ss).length 0 1 ++ (encUnits keyStrings ++ zeros 2))).length = pre.length + 36 := by
    rw [List.length_append, List.length_append, viHdr_length]; rfl
  rw [← hpl]
  rw [viWalk_all (f := fun a s => mapAdd wlt a.1 a.2 s) viTableB Prod.fst hd ss _ post m.1 hd2 (by rw [hpl]; omega)
    (by rw [hpl]; omega) (fun y hy => viTableB_form (hx y hy)) (fun y hy pre post s hdd h4 => viTable_at (hx y hy) hd hdd h4)
    (by rw [hpl]; omega), ok_bind]

/-! ### VarFileInfo -/

theorem viPairs_at {d pre : Bytes} {base : Nat} : ∀ (l : TransMap) (post : Bytes) (i : Nat) (m : TransMap), d.drop (base + i) = l.flatMap viPairB ++ post →
    (∀ x ∈ l, x.1 < 65536 ∧ x.2 < 65536) → base + i + 4 * l.length ≤ d.length →
    viPairs d base l.length i m = .ok (l.foldl (fun s a => multiAdd a s) m)
  | [], _, _, _, _, _, _ => rfl
  | x :: l, post, i, m, hd, hx, hl => by
    rw [List.length_cons] at hl
    have h1 : rd 2 d (base + i) = x.1 := by
      have : rd 2 (d.drop (base + i)) 0 = rd 2 d (base + i) := by unfold rd slice; rw [List.drop_drop, Nat.add_zero]
      rw [← this, hd, List.flatMap_cons, viPairB]
      simp only [List.append_assoc]
      rw [rd_here, Nat.mod_eq_of_lt (hx x (by simp)).1]
    have h2 : rd 2 d (base + 2 + i) = x.2 := by
      have : rd 2 (d.drop (base + i)) 2 = rd 2 d (base + 2 + i) := by
        unfold rd slice; rw [List.drop_drop, show base + i + 2 = base + 2 + i by omega]
      rw [← this, hd, List.flatMap_cons, viPairB]
      simp only [List.append_assoc]
      rw [rd_leBytes_skip (Nat.le_refl 2), Nat.sub_self, rd_here, Nat.mod_eq_of_lt (hx x (by simp)).2]
    rw [List.length_cons, viPairs, readU_ok (by omega), ok_bind, readU_ok (by omega), ok_bind, h1, h2, List.foldl_cons]
    refine viPairs_at (pre := pre) l post (i + 4) _ ?_ (fun y hy => hx y (by simp [hy])) (by omega)
    rw [show base + (i + 4) = base + i + 4 by omega, ← List.drop_drop, hd, List.flatMap_cons, List.append_assoc,
      List.drop_left' (by simp [viPairB])]

theorem viTransB1_eq (ts : TransMap) :
    viTransB1 ts = viHdr (viTransB1 ts).length (4 * ts.length) 0 ++ (encUnits keyTrans ++ (zeros 2 ++ (zeros 2 ++ ts.flatMap viPairB))) := by
  have h := viTransB1_length ts
  have h' : (viTransB1 ts).length = 6 + (encUnits keyTrans ++ zeros 4 ++ ts.flatMap viPairB).length := by
    unfold viTransB1
    rw [List.length_append, viHdr_length]
  rw [h', viTransB1]
  rw [show zeros 4 = zeros 2 ++ zeros 2 from rfl]
  simp only [List.append_assoc]

theorem viVar_at {d pre post : Bytes} {ts m : TransMap} (hs : ts ≠ []) (hx : ∀ x ∈ ts, x.1 < 65536 ∧ x.2 < 65536)
    (hd : d.length < 65536) (hdd : d = pre ++ (viTransB1 ts ++ post)) (h4 : pre.length % 4 = 0) :
    viVar d pre.length keyTrans m = .ok (ts.foldl (fun s a => multiAdd a s) m) := by
  have hl := viTransB1_length ts
  have hpos : 0 < ts.length := List.length_pos_iff.mpr hs
  have hdl : d.length = pre.length + ((viTransB1 ts).length + post.length) := by
    rw [hdd]; simp only [List.length_append]
  have hck : ceilTo (6 + 2 * (keyTrans.length + 1)) 4 = 32 := by decide
  unfold viVar
  rw [readU_ok (by omega), ok_bind]
  have e2 : rd 2 d (pre.length + 2) = 4 * ts.length := by
    rw [hdd, viTransB1_eq ts, List.append_assoc, rd2_hdr, Nat.mod_eq_of_lt (by omega)]
  rw [e2, if_pos ⟨rfl, by omega⟩, viValuePos_eq h4 (by rw [hck]; omega), ok_bind, hck, throwIf_neg (by unfold w32; omega), ok_bind]
  rw [show (4 * ts.length + 3) / 4 = ts.length by omega]
  refine viPairs_at (pre := pre) ts post 0 m ?_ hx (by omega)
  rw [Nat.add_zero, ← List.drop_drop, hdd, List.drop_left, viTransB1_eq ts]
  rw [show viHdr (viTransB1 ts).length (4 * ts.length) 0 ++ (encUnits keyTrans ++ (zeros 2 ++ (zeros 2 ++ ts.flatMap viPairB))) ++ post =
    (viHdr (viTransB1 ts).length (4 * ts.length) 0 ++ (encUnits keyTrans ++ (zeros 2 ++ zeros 2))) ++ (ts.flatMap viPairB ++ post) by
      simp only [List.append_assoc]]
  rw [List.drop_left']
  rw [List.length_append, viHdr_length]; rfl

theorem viTransB_len {ts : TransMap} (hs : ts ≠ []) : (viTransB ts).length = 64 + 4 * ts.length := by
  rw [viTransB_length, if_neg hs]

theorem viTransB_eq {ts : TransMap} (hs : ts ≠ []) :
    viTransB ts = viHdr (viTransB ts).length 0 1 ++ (encUnits keyVar ++ (zeros 2 ++ (zeros 2 ++ viTransB1 ts))) := by
  have h' : (viTransB ts).length = 6 + (encUnits keyVar ++ zeros 4 ++ viTransB1 ts).length := by
    unfold viTransB
    rw [if_neg hs, List.length_append, viHdr_length]
  rw [h', viTransB, if_neg hs]
  rw [show zeros 4 = zeros 2 ++ zeros 2 from rfl]
  simp only [List.append_assoc]

theorem viChild_trans {d pre post : Bytes} {ts : TransMap} {m : LangMap × TransMap} (hs : ts ≠ []) (hx : ∀ x ∈ ts, x.1 < 65536 ∧ x.2 < 65536)
    (hd : d.length < 65536) (hdd : d = pre ++ (viTransB ts ++ post)) (h4 : pre.length % 4 = 0) :
    viChild d pre.length keyVar m = .ok (m.1, ts.foldl (fun s a => multiAdd a s) m.2) := by
  have hl := viTransB_len hs
  have hl1 := viTransB1_length ts
  have hdl : d.length = pre.length + ((viTransB ts).length + post.length) := by
    rw [hdd]; simp only [List.length_append]
  have hck : ceilTo (6 + 2 * (keyVar.length + 1)) 4 = 32 := by decide
  unfold viChild
  rw [readU_ok (by omega), ok_bind, readU_ok (by omega), ok_bind, if_neg (by decide), if_pos rfl]
  have e1 : rd 2 d pre.length = (viTransB ts).length := by
    rw [hdd, viTransB_eq hs, List.append_assoc, rd0_hdr, Nat.mod_eq_of_lt (by omega), ← viTransB_eq hs]
  have e2 : rd 2 d (pre.length + 2) = 0 := by
    rw [hdd, viTransB_eq hs, List.append_assoc, rd2_hdr]
  rw [e1, e2, viChildPos_eq h4 (by decide) (by rw [ceilTo_zero, hck]; omega), ceilTo_zero, Nat.add_zero, ok_bind, hck]
  have hd2 : d = (pre ++ (viHdr (viTransB ts).length 0 1 ++ (encUnits keyVar ++ (zeros 2 ++ zeros 2)))) ++ ([ts].flatMap viTransB1 ++ post) := by
    rw [hdd, List.flatMap_cons, List.flatMap_nil, List.append_nil]
    refine (congrArg (fun z => pre ++ (z ++ post)) (viTransB_eq hs)).trans ?_
    simp only [List.append_assoc]
  have hpl : (pre ++ (viHdr (viTransB ts).length 0 1 ++ (encUnits keyVar ++ (zeros 2 ++ zeros 2)))).length = pre.length + 32 := by
    rw [List.length_append, List.length_append, viHdr_length]; rfl
  have hf1 : ([ts].flatMap viTransB1).length = 32 + 4 * ts.length := by rw [List.flatMap_cons, List.flatMap_nil, List.append_nil, hl1]
  rw [← hpl]
  rw [viWalk_all (f := fun a s => a.foldl (fun s a => multiAdd a s) s) viTransB1 (fun _ => keyTrans) hd [ts] _ post m.2 hd2 (by rw [hpl]; omega)
    (by rw [hpl, hf1]; omega) ?_ ?_ (by rw [hpl]; omega), ok_bind]
  · rfl
  · intro y hy
    rw [List.mem_singleton] at hy
    subst hy
    exact ⟨_, _, _, _, viTransB1_eq y, by omega, Nat.le_refl _, by rw [ceil4]; omega, keyTrans_ok⟩
  · intro y hy pre' post' s hdd' h4'
    rw [List.mem_singleton] at hy
    subst hy
    exact viVar_at hs hx hd hdd' h4'

/-! ### The root block -/

theorem viRootB_length (f : FileVer) (n : Nat) : (viRootB f n).length = 92 := by
  unfold viRootB
  rw [List.length_append, List.length_append, List.length_append, viHdr_length, zeros_length, viFixedBytes_length]
  rfl

theorem viFixed_rd (f : FileVer) : rd 4 (viFixedBytes f) 0 = 0xFEEF04BD ∧ rd 4 (viFixedBytes f) 4 = 0x00010000 := by
  unfold viFixedBytes
  simp only [List.append_assoc]
  constructor
  · rw [rd_here]
  · rw [rd_leBytes_skip (by decide), rd_here]

theorem viFixed_fields {f : FileVer} (hf : f.Ok) :
    rd 4 (viFixedBytes f) 8 = f.verMS ∧ rd 4 (viFixedBytes f) 12 = f.verLS ∧ rd 4 (viFixedBytes f) 16 = f.prodMS ∧
    rd 4 (viFixedBytes f) 20 = f.prodLS ∧ rd 4 (viFixedBytes f) 28 = f.flags ∧ rd 4 (viFixedBytes f) 32 = f.os ∧
    rd 4 (viFixedBytes f) 36 = f.type ∧ rd 4 (viFixedBytes f) 40 = f.subtype ∧ rd 4 (viFixedBytes f) 44 = f.dateMS ∧
    rd 4 (viFixedBytes f) 48 = f.dateLS := by
  obtain ⟨h1, h2, h3, h4, h5, h6, h7, h8, h9, h10⟩ := hf
  have k : ∀ (x : Nat) (r : Bytes), x < 2 ^ 32 → rd 4 (leBytes 4 x ++ r) 0 = x := fun x r h => by
    rw [rd_here]; exact Nat.mod_eq_of_lt h
  have k' : ∀ (x : Nat), x < 2 ^ 32 → rd 4 (leBytes 4 x) 0 = x := fun x h => by
    rw [rd_here']; exact Nat.mod_eq_of_lt h
  have sk : ∀ (x o : Nat) (r : Bytes), rd 4 (leBytes 4 x ++ r) (o + 4) = rd 4 r o := fun x o r => by
    rw [rd_leBytes_skip (by omega), Nat.add_sub_cancel]
  unfold viFixedBytes
  simp only [List.append_assoc]
  refine ⟨?_, ?_, ?_, ?_, ?_, ?_, ?_, ?_, ?_, ?_⟩
  · rw [sk _ 4, sk _ 0, k _ _ h1]
  · rw [sk _ 8, sk _ 4, sk _ 0, k _ _ h2]
  · rw [sk _ 12, sk _ 8, sk _ 4, sk _ 0, k _ _ h3]
  · rw [sk _ 16, sk _ 12, sk _ 8, sk _ 4, sk _ 0, k _ _ h4]
  · rw [sk _ 24, sk _ 20, sk _ 16, sk _ 12, sk _ 8, sk _ 4, sk _ 0, k _ _ h5]
  · rw [sk _ 28, sk _ 24, sk _ 20, sk _ 16, sk _ 12, sk _ 8, sk _ 4, sk _ 0, k _ _ h6]
  · rw [sk _ 32, sk _ 28, sk _ 24, sk _ 20, sk _ 16, sk _ 12, sk _ 8, sk _ 4, sk _ 0, k _ _ h7]
  · rw [sk _ 36, sk _ 32, sk _ 28, sk _ 24, sk _ 20, sk _ 16, sk _ 12, sk _ 8, sk _ 4, sk _ 0, k _ _ h8]
  · rw [sk _ 40, sk _ 36, sk _ 32, sk _ 28, sk _ 24, sk _ 20, sk _ 16, sk _ 12, sk _ 8, sk _ 4, sk _ 0, k _ _ h9]
  · rw [sk _ 44, sk _ 40, sk _ 36, sk _ 32, sk _ 28, sk _ 24, sk _ 20, sk _ 16, sk _ 12, sk _ 8, sk _ 4, sk _ 0, k' _ h10]

theorem viFixed_slice (f : FileVer) (n : Nat) (rest : Bytes) : slice (viRootB f n ++ rest) 40 52 = viFixedBytes f := by
  have hl : (viHdr n 52 0 ++ (encUnits keyRoot ++ zeros 2) ++ zeros 2).length = 40 := by
    rw [List.length_append, List.length_append, viHdr_length]; rfl
  unfold viRootB
  rw [List.append_assoc, slice_append_right (by omega), hl, Nat.sub_self]
  exact slice_append_here (viFixedBytes_length f).symm

theorem viFixed_at {f : FileVer} {n : Nat} {rest : Bytes} (hf : f.Ok) : viFixed (viRootB f n ++ rest) keyRoot 52 = .ok f := by
  have hl : (viRootB f n ++ rest).length = 92 + rest.length := by rw [List.length_append, viRootB_length]
  have hck : ceilTo (6 + 2 * (keyRoot.length + 1)) 4 = 40 := by decide
  obtain ⟨r0, r1⟩ := viFixed_rd f
  obtain ⟨h1, h2, h3, h4, h5, h6, h7, h8, h9, h10⟩ := viFixed_fields hf
  have hs := viFixed_slice f n rest
  generalize viRootB f n ++ rest = d at hl hs ⊢
  generalize viFixedBytes f = x at *
  unfold viFixed
  rw [if_pos (by decide), viValuePos_eq rfl (by rw [hck]; decide), ok_bind, hck, Nat.zero_add, throwIf_neg (by omega), ok_bind,
    readN_ok (by omega), ok_bind, hs, throwIf_neg (by rw [r0, r1]; simp), ok_bind, h1, h2, h3, h4, h5, h6, h7, h8, h9, h10]

theorem foldl_multiAdd : ∀ (l m : TransMap), (m ++ l).Pairwise (fun a b => a.1 ≤ b.1) → l.foldl (fun s a => multiAdd a s) m = m ++ l
  | [], m, _ => by simp
  | a :: l, m, h => by
    have h' : (m ++ [a] ++ l).Pairwise (fun a b : Nat × Nat => a.1 ≤ b.1) := by rw [List.append_assoc]; exact h
    have hm : ∀ x ∈ m, x.1 ≤ a.1 := fun x hx => (List.pairwise_append.mp h).2.2 x hx a (by simp)
    have e : multiAdd a m = m ++ [a] := by
      clear h h'
      induction m with
      | nil => rfl
      | cons y m ih =>
        have := hm y (by simp)
        rw [multiAdd, if_neg (by omega), ih (fun x hx => hm x (by simp [hx]))]
        rfl
    rw [List.foldl_cons, e, foldl_multiAdd l _ h', List.append_assoc]
    rfl

theorem sum_part {α : Type} {g : α → Nat} : ∀ {l : List α} {a : α}, a ∈ l → g a ≤ (l.map g).sum
  | b :: l, a, h => by
    rw [List.map_cons, List.sum_cons]
    rcases List.mem_cons.mp h with rfl | h
    · omega
    · have := sum_part (g := g) h
      omega

/-- The tables of version information that is not too large. -/
theorem VerOk.tables {f : FileVer} {ss : LangMap} {ts : TransMap} (h : VerOk f ss ts) : ∀ x ∈ ss, TableOk x := by
  intro x hx
  refine ⟨(h.strings x hx).1, h.sorted.2 x hx, fun y hy => ⟨((h.strings x hx).2 y hy).1, ((h.strings x hx).2 y hy).2, ?_⟩⟩
  have h1 := sum_part (g := verTableSize) hx
  have h2 := sum_part (g := verStrSize) hy
  have h3 := h.size
  unfold verSize at h3
  rw [if_neg (by rintro rfl; cases hx)] at h3
  have h4 : verTableSize x = ceilTo (6 + 2 * (x.1.length + 1)) 4 + (x.2.map verStrSize).sum := rfl
  have h5 : verStrSize y = ceilTo (6 + 2 * (y.1.length + 1)) 4 + ceilTo (2 * (y.2.length + 1)) 4 := rfl
  have h6 := ceil4 (2 * (y.2.length + 1))
  omega

theorem VerOk.bytes {f : FileVer} {ss : LangMap} {ts : TransMap} (h : VerOk f ss ts) :
    verSize ss ts = 92 + (viStringsB ss).length + (viTransB ts).length := by
  have e : ss ≠ [] → (ss.flatMap viTableB).length = (ss.map verTableSize).sum := by
    intro _
    refine flatMap_eq ss fun x hx => ?_
    rw [viTableB_length, verTableSize, ← viKeyB_ceil, flatMap_eq (g := verStrSize) x.2]
    · omega
    · intro y hy
      rw [viStrB_length, verStrSize, w16, Nat.mod_eq_of_lt ((h.tables x hx).2.2 y hy).2.2, Nat.mul_comm (y.2.length + 1)]
  unfold verSize
  rw [viTransB_length]
  by_cases hs : ss = []
  · subst hs; rfl
  · rw [if_neg hs, viStringsB_length hs, e hs]

/-- The blocks below the root. -/
inductive ViPart where
  | strings
  | trans

/-- Their bytes, keys, and what reading them does. -/
def ViPart.enc (ss : LangMap) (ts : TransMap) : ViPart → Bytes
  | .strings => viStringsB ss
  | .trans => viTransB ts

def ViPart.key : ViPart → WStr
  | .strings => keyStrings
  | .trans => keyVar

def ViPart.act (ss : LangMap) (ts : TransMap) : ViPart → LangMap × TransMap → LangMap × TransMap
  | .strings, m => (ss.foldl (fun s a => mapAdd wlt a.1 a.2 s) m.1, m.2)
  | .trans, m => (m.1, ts.foldl (fun s a => multiAdd a s) m.2)

def ViPart.Here (ss : LangMap) (ts : TransMap) : ViPart → Prop
  | .strings => ss ≠ []
  | .trans => ts ≠ []

def viParts (ss : LangMap) (ts : TransMap) : List ViPart := (if ss = [] then [] else [.strings]) ++ (if ts = [] then [] else [.trans])

theorem viParts_flat (ss : LangMap) (ts : TransMap) : (viParts ss ts).flatMap (ViPart.enc ss ts) = viStringsB ss ++ viTransB ts := by
  unfold viParts
  rw [List.flatMap_append]
  congr 1
  · by_cases hs : ss = []
    · subst hs; rfl
    · rw [if_neg hs, List.flatMap_cons, List.flatMap_nil, List.append_nil, ViPart.enc]
  · by_cases hs : ts = []
    · subst hs; rfl
    · rw [if_neg hs, List.flatMap_cons, List.flatMap_nil, List.append_nil, ViPart.enc]

theorem viParts_here {ss : LangMap} {ts : TransMap} {p : ViPart} (hp : p ∈ viParts ss ts) : p.Here ss ts := by
  rcases List.mem_append.mp hp with hp | hp
  · by_cases hs : ss = []
    · rw [if_pos hs] at hp; cases hp
    · rw [if_neg hs, List.mem_singleton] at hp; subst hp; exact hs
  · by_cases hs : ts = []
    · rw [if_pos hs] at hp; cases hp
    · rw [if_neg hs, List.mem_singleton] at hp; subst hp; exact hs

theorem ViPart.form {ss : LangMap} {ts : TransMap} {p : ViPart} (h : p.Here ss ts) :
    ∃ n v t rest, p.enc ss ts = viHdr n v t ++ (encUnits p.key ++ (zeros 2 ++ rest)) ∧ 0 < n ∧ n ≤ (p.enc ss ts).length ∧
        ceilTo n 4 = (p.enc ss ts).length ∧ KeyOk p.key := by
  cases p with
  | strings =>
    have h1 := viStringsB_length h
    have h2 := @viStringsB_mod4 ss
    exact ⟨_, _, _, _, viStringsB_eq h, by omega, Nat.le_refl _, by rw [ceil4]; show _ = (viStringsB ss).length; omega, keyStrings_ok⟩
  | trans =>
    have h1 := viTransB_len h
    exact ⟨_, _, _, _, viTransB_eq h, by omega, Nat.le_refl _, by rw [ceil4]; show _ = (viTransB ts).length; omega, keyVar_ok⟩

theorem viParts_act {ss : LangMap} {ts : TransMap} (h1 : MapSorted wlt ss) (h2 : ts.Pairwise (fun a b => a.1 ≤ b.1)) :
    (viParts ss ts).foldl (fun s a => a.act ss ts s) ([], []) = (ss, ts) := by
  have a1 : ss.foldl (fun s a => mapAdd wlt a.1 a.2 s) [] = ss := foldl_mapAdd wlt_ord ss [] h1
  have a2 : ts.foldl (fun s a => multiAdd a s) [] = ts := foldl_multiAdd ts [] h2
  unfold viParts
  by_cases hs : ss = []
  · by_cases ht : ts = []
    · rw [if_pos hs, if_pos ht, hs, ht]; rfl
    · rw [if_pos hs, if_neg ht, List.nil_append, List.foldl_cons, List.foldl_nil, ViPart.act, a2, hs]
  · by_cases ht : ts = []
    · rw [if_neg hs, if_pos ht, List.append_nil, List.foldl_cons, List.foldl_nil, ViPart.act, a1, ht]
    · rw [if_neg hs, if_neg ht, List.singleton_append, List.foldl_cons, List.foldl_cons, List.foldl_nil, ViPart.act, ViPart.act, a1, a2]

theorem viWalk_root {d R : Bytes} {ss : LangMap} {ts : TransMap} (hR : R.length = 92) (hx : ∀ x ∈ ss, TableOk x) (h1 : MapSorted wlt ss)
    (ht : ts.Ok) (hdd : d = R ++ ((viParts ss ts).flatMap (ViPart.enc ss ts) ++ [])) (hd : d.length < 65536) :
    viWalk d 0 d.length (viChild d) 92 ([], []) = .ok (ss, ts) := by
  have hw := viWalk_all (d := d) (base := 0) (len := d.length) (body := viChild d) (ViPart.enc ss ts) ViPart.key (ViPart.act ss ts) hd
    (viParts ss ts) R [] ([], []) hdd (Nat.zero_le _)
    (by rw [hdd, List.length_append, List.append_nil]; omega) (fun p hp => ViPart.form (viParts_here hp))
    (by
      intro p hp pre post s hdd h4
      have hq := viParts_here hp
      cases p with
      | strings => exact viChild_strings hq hx hd hdd h4
      | trans => exact viChild_trans hq ht.2 hd hdd h4)
    (by rw [hR])
  rw [hR] at hw
  rw [hw, viParts_act h1 ht.1]

/-- What is read from the bytes. -/
theorem viRead_bytes {f : FileVer} {ss : LangMap} {ts : TransMap} (h : VerOk f ss ts) :
    viRead (viRootB f (verSize ss ts) ++ viStringsB ss ++ viTransB ts) [] [] = .ok (f, ss, ts) := by
  have hb := h.bytes
  have hsz := h.size
  have hr := viRootB_length f (verSize ss ts)
  have hck : ceilTo (6 + 2 * (keyRoot.length + 1)) 4 + ceilTo 52 4 = 92 := by decide
  have hdl : (viRootB f (verSize ss ts) ++ viStringsB ss ++ viTransB ts).length = verSize ss ts := by
    rw [List.length_append, List.length_append, hr]; omega
  have hroot : viRootB f (verSize ss ts) = viHdr (verSize ss ts) 52 0 ++ (encUnits keyRoot ++ (zeros 2 ++ (zeros 2 ++ viFixedBytes f))) := by
    unfold viRootB; simp only [List.append_assoc]
  have hd3 : viRootB f (verSize ss ts) ++ viStringsB ss ++ viTransB ts =
      [] ++ (viHdr (verSize ss ts) 52 0 ++ (encUnits keyRoot ++ (zeros 2 ++ (zeros 2 ++ viFixedBytes f ++ viStringsB ss ++ viTransB ts)))) := by
    rw [hroot]; simp only [List.append_assoc, List.nil_append]
  have hkey : viKey (viRootB f (verSize ss ts) ++ viStringsB ss ++ viTransB ts) 0 = .ok keyRoot := by
    rw [hd3]
    exact viKey_at (pre := []) (viHdr_length _ _ _) keyRoot_ok
  have e1 : rd 2 (viRootB f (verSize ss ts) ++ viStringsB ss ++ viTransB ts) 0 = verSize ss ts := by
    rw [hd3]
    refine (rd0_hdr [] _ (verSize ss ts) 52 0).trans ?_
    exact Nat.mod_eq_of_lt hsz
  have e2 : rd 2 (viRootB f (verSize ss ts) ++ viStringsB ss ++ viTransB ts) 2 = 52 := by
    rw [hd3]
    exact rd2_hdr [] _ (verSize ss ts) 52 0
  have hfix : viFixed (viRootB f (verSize ss ts) ++ viStringsB ss ++ viTransB ts) keyRoot 52 = .ok f := by
    rw [List.append_assoc]; exact viFixed_at h.fixed
  have hw := viWalk_root (d := viRootB f (verSize ss ts) ++ viStringsB ss ++ viTransB ts) hr h.tables h.sorted.1 h.trans
    (by rw [viParts_flat, List.append_nil, List.append_assoc]) (by omega)
  rw [hdl] at hw
  clear hroot hd3
  generalize viRootB f (verSize ss ts) ++ viStringsB ss ++ viTransB ts = d at *
  unfold viRead
  rw [throwIf_neg (by omega), ok_bind, hkey, ok_bind, throwIf_neg (fun h => h rfl), ok_bind, readU_ok (by omega), ok_bind, readU_ok (by omega), ok_bind, e1, e2,
    hfix, ok_bind, viChildPos_eq rfl (by decide) (by rw [Nat.zero_add, hck]; decide), ok_bind, Nat.zero_add, hck, hw, ok_bind]

end PE
