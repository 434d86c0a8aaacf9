/-
The checks of icon and cursor files, and what the readers return, in terms of the specification.
-/
import Verif.Lemmas.Icons
import Verif.Lemmas.Header
import Verif.Props.ResourceData

namespace PE

theorem leBytes4_w32 (n : Nat) : leBytes 4 (w32 n) = leBytes 4 n := leBytes_mod 4 n

theorem leBytes2_w16 (n : Nat) : leBytes 2 (w16 n) = leBytes 2 n := leBytes_mod 2 n

theorem isSumSafe_lt {a b : Nat} (_ : a < 2 ^ 32) (hb : b < 2 ^ 32) : isSumSafe a b = true ↔ a + b < 2 ^ 32 := by
  unfold isSumSafe
  simp
  omega

/-! ### The checks of a file -/

theorem icCheckEntries_iff (k : IcKind) (f : Bytes) (hdrs : Nat) : ∀ n i, 6 + 16 * (i + n) ≤ f.length →
    (icCheckEntries k f hdrs n i = .ok () ↔ ∀ j, i ≤ j → j < i + n → rd 4 f (6 + 16 * j + 8) ≠ 0 ∧ hdrs ≤ rd 4 f (6 + 16 * j + 12) ∧
      rd 4 f (6 + 16 * j + 12) + rd 4 f (6 + 16 * j + 8) ≤ f.length ∧
      rd 4 f (6 + 16 * j + 12) + rd 4 f (6 + 16 * j + 8) < 2 ^ 32) := by
  intro n
  induction n with
  | zero => intro i _; rw [icCheckEntries]; exact ⟨fun _ j h1 h2 => by omega, fun _ => rfl⟩
  | succ n ih =>
    intro i hl
    have b1 : rd 4 f (6 + 16 * i + 8) < 2 ^ 32 := rd_lt 4 f _
    have b2 : rd 4 f (6 + 16 * i + 12) < 2 ^ 32 := rd_lt 4 f _
    rw [icCheckEntries, readN_ok (by omega), ok_bind, rd_slice (by omega), rd_slice (by omega)]
    by_cases hc : rd 4 f (6 + 16 * i + 8) = 0 ∨ rd 4 f (6 + 16 * i + 12) < hdrs ∨
        isSumSafe (rd 4 f (6 + 16 * i + 12)) (rd 4 f (6 + 16 * i + 8)) = false ∨
        f.length < rd 4 f (6 + 16 * i + 12) + rd 4 f (6 + 16 * i + 8)
    · rw [throwIf, if_pos hc]
      refine ⟨fun h => (by cases h), fun h => ?_⟩
      obtain ⟨h1, h2, h3, h4⟩ := h i (by omega) (by omega)
      have := (isSumSafe_lt b2 b1).mpr h4
      rw [this] at hc
      rcases hc with h | h | h | h
      · exact absurd h h1
      · omega
      · cases h
      · omega
    · rw [throwIf, if_neg hc]
      show icCheckEntries k f hdrs n (i + 1) = _ ↔ _
      rw [ih (i + 1) (by omega)]
      refine ⟨fun h j h1 h2 => ?_, fun h j h1 h2 => h j (by omega) (by omega)⟩
      by_cases hj : j = i
      · subst hj
        have h5 : isSumSafe (rd 4 f (6 + 16 * j + 12)) (rd 4 f (6 + 16 * j + 8)) = true := by
          cases hs : isSumSafe (rd 4 f (6 + 16 * j + 12)) (rd 4 f (6 + 16 * j + 8)) with
          | true => rfl
          | false => exact absurd (Or.inr (Or.inr (Or.inl hs))) hc
        refine ⟨fun h0 => hc (Or.inl h0), ?_, ?_, (isSumSafe_lt b2 b1).mp h5⟩
        · exact Nat.le_of_not_lt fun h0 => hc (Or.inr (Or.inl h0))
        · exact Nat.le_of_not_lt fun h0 => hc (Or.inr (Or.inr (Or.inr h0)))
      · exact h j (by omega) (by omega)

/-- The checks accept exactly the files of the specification. -/
theorem icFileCheck_iff (k : IcKind) (f : Bytes) (n : Nat) : icFileCheck k f = .ok n ↔ IcoFile f ∧ n = rd 2 f 4 := by
  unfold icFileCheck
  by_cases h6 : f.length < 6
  · rw [throwIf, if_pos h6]
    exact ⟨fun h => (by cases h), fun h => by have := h.1.long; omega⟩
  · rw [throwIf, if_neg h6, ok_bind, readU_ok (by omega), ok_bind]
    by_cases hc : f.length < 6 + rd 2 f 4 * 16 ∨ rd 2 f 4 = 0
    · rw [throwIf, if_pos hc]
      refine ⟨fun h => (by cases h), fun h => ?_⟩
      have h1 := h.1.some
      have h2 := h.1.headers
      omega
    · rw [throwIf, if_neg hc, ok_bind]
      have hl : 6 + 16 * (0 + rd 2 f 4) ≤ f.length := by omega
      have key := icCheckEntries_iff k f (6 + rd 2 f 4 * 16) (rd 2 f 4) 0 hl
      constructor
      · intro h
        cases hx : icCheckEntries k f (6 + rd 2 f 4 * 16) (rd 2 f 4) 0 with
        | error e => rw [hx] at h; cases h
        | ok u =>
          rw [hx] at h
          have hn : rd 2 f 4 = n := by injection h
          have hk := key.mp hx
          refine ⟨⟨by omega, by omega, by omega, ?_, ?_, ?_, ?_⟩, hn.symm⟩
          · exact fun i hi => (hk i (by omega) (by omega)).1
          · exact fun i hi => by have := (hk i (by omega) (by omega)).2.1; omega
          · exact fun i hi => (hk i (by omega) (by omega)).2.2.1
          · exact fun i hi => (hk i (by omega) (by omega)).2.2.2
      · rintro ⟨h, rfl⟩
        rw [key.mpr (fun j _ hj => ⟨h.size j (by omega), by have := h.behind j (by omega); omega, h.fits j (by omega), h.small j (by omega)⟩)]
        rfl

/-- Any other file is refused with the error of the format. -/
theorem icFileCheck_only (k : IcKind) (f : Bytes) : (∃ n, icFileCheck k f = .ok n) ∨ icFileCheck k f = throwE k.err := by
  unfold icFileCheck
  by_cases h6 : f.length < 6
  · rw [throwIf, if_pos h6]; exact Or.inr rfl
  · rw [throwIf, if_neg h6, ok_bind, readU_ok (by omega), ok_bind]
    by_cases hc : f.length < 6 + rd 2 f 4 * 16 ∨ rd 2 f 4 = 0
    · rw [throwIf, if_pos hc]; exact Or.inr rfl
    · rw [throwIf, if_neg hc, ok_bind]
      have : ∀ n i, 6 + 16 * (i + n) ≤ f.length → icCheckEntries k f (6 + rd 2 f 4 * 16) n i = .ok () ∨
          icCheckEntries k f (6 + rd 2 f 4 * 16) n i = throwE k.err := by
        intro n
        induction n with
        | zero => intro i _; exact Or.inl rfl
        | succ n ih =>
          intro i hl
          rw [icCheckEntries, readN_ok (by omega), ok_bind]
          unfold throwIf
          split
          · exact Or.inr rfl
          · exact ih (i + 1) (by omega)
      rcases this (rd 2 f 4) 0 (by omega) with h | h
      · rw [h]; exact Or.inl ⟨_, rfl⟩
      · rw [h]; exact Or.inr rfl

/-! ### Reading -/

/-- The image without the hotspot, if there is one. -/
def IcKind.bodyOf (k : IcKind) (x : Bytes) : Bytes :=
  match k with
  | .icon => x
  | .cursor => x.drop 4

/-- Entry `i` of the group `d`. -/
def grpEntry (d : Bytes) (i : Nat) : Bytes := slice d (6 + i * 14) 14

/-- `p` is the description and the image for the entry `g` of a group. -/
def ImgAt (k : IcKind) (get : Nat → Res Bytes) (g : Bytes) (p : Bytes × Bytes) : Prop :=
  ∃ x, get (rd 2 g 12) = .ok x ∧ (k = .cursor → 4 ≤ x.length) ∧ p = (k.fileEntry g x, k.bodyOf x)

theorem hotspot_of {k : IcKind} {get : Nat → Res Bytes} {n : Nat} {x g : Bytes} (h : get n = .ok x) (hc : k = .cursor → 4 ≤ x.length) :
    ∃ y, k.hotspot get n = .ok y ∧ k.fileEntry g y = k.fileEntry g x := by
  cases k with
  | icon => exact ⟨[], rfl, rfl⟩
  | cursor =>
    refine ⟨x, ?_, rfl⟩
    unfold IcKind.hotspot
    dsimp only
    have := hc rfl
    rw [h, ok_bind, throwIf, if_neg (by omega), ok_bind]

theorem image_of {k : IcKind} {x : Bytes} (hc : k = .cursor → 4 ≤ x.length) : k.image x = .ok (k.bodyOf x) := by
  cases k with
  | icon => rfl
  | cursor =>
    have := hc rfl
    unfold IcKind.image
    dsimp only
    rw [if_neg (by omega)]; rfl

theorem icHeaders_eq (k : IcKind) (get : Nat → Res Bytes) (d : Bytes) : ∀ (L : List (Bytes × Bytes)) (i off : Nat) (acc : Bytes),
    6 + 14 * (i + L.length) ≤ d.length → (∀ j p, L[j]? = some p → ImgAt k get (grpEntry d (i + j)) p) →
    icHeaders k get d L.length i (w32 off) acc = .ok (acc ++ icoDir off L) := by
  intro L
  induction L with
  | nil => intro i off acc _ _; rw [icoDir, List.append_nil]; rfl
  | cons p L ih =>
    intro i off acc hl h
    rw [List.length_cons] at hl
    obtain ⟨x, hx, hc, hp⟩ := h 0 p rfl
    obtain ⟨y, hy, he⟩ := hotspot_of (k := k) (g := grpEntry d i) hx hc
    rw [List.length_cons, icHeaders, readN_ok (by omega), ok_bind]
    show (do let x ← k.hotspot get (rd 2 (grpEntry d i) 12); _) = _
    rw [Nat.add_zero] at hy hp
    rw [hy, ok_bind]
    show icHeaders k get d L.length (i + 1) (w32 (w32 off + rd 4 (k.fileEntry (grpEntry d i) y) 8))
      (acc ++ k.fileEntry (grpEntry d i) y ++ leBytes 4 (w32 off)) = _
    have hp1 : k.fileEntry (grpEntry d i) x = p.1 := by rw [hp]
    rw [he, hp1, show w32 (w32 off + rd 4 p.1 8) = w32 (off + rd 4 p.1 8) by unfold w32; omega,
      ih (i + 1) (off + rd 4 p.1 8) _ (by omega) (fun j q hq => by
        have := h (j + 1) q hq
        rw [show i + (j + 1) = i + 1 + j by omega] at this
        exact this), leBytes4_w32, icoDir]
    simp only [List.append_assoc]

theorem icBodies_eq (k : IcKind) (get : Nat → Res Bytes) (d : Bytes) : ∀ (L : List (Bytes × Bytes)) (i : Nat) (acc : Bytes),
    6 + 14 * (i + L.length) ≤ d.length → (∀ j p, L[j]? = some p → ImgAt k get (grpEntry d (i + j)) p) →
    icBodies k get d L.length i acc = .ok (acc ++ (L.map Prod.snd).flatten) := by
  intro L
  induction L with
  | nil => intro i acc _ _; rw [List.map_nil, List.flatten_nil, List.append_nil]; rfl
  | cons p L ih =>
    intro i acc hl h
    rw [List.length_cons] at hl
    obtain ⟨x, hx, hc, hp⟩ := h 0 p rfl
    rw [Nat.add_zero] at hx hp
    rw [List.length_cons, icBodies, readN_ok (by omega), ok_bind]
    show (do let x ← get (rd 2 (grpEntry d i) 12); _) = _
    rw [hx, ok_bind, image_of hc, ok_bind, ih (i + 1) _ (by omega) (fun j q hq => by
        have := h (j + 1) q hq
        rw [show i + (j + 1) = i + 1 + j by omega] at this
        exact this), hp]
    rw [List.map_cons, List.flatten_cons, List.append_assoc]

theorem icBodies_ok (k : IcKind) (get : Nat → Res Bytes) (d F : Bytes) : ∀ (n i : Nat) (acc : Bytes),
    icBodies k get d n i acc = .ok F → ∀ j, j < n → ∃ x, get (rd 2 (grpEntry d (i + j)) 12) = .ok x ∧ (k = .cursor → 4 ≤ x.length) := by
  intro n
  induction n with
  | zero => intro i acc _ j hj; omega
  | succ n ih =>
    intro i acc h j hj
    rw [icBodies] at h
    obtain ⟨g, hg, h⟩ := bind_ok_iff.mp h
    have hg' : g = grpEntry d i := by
      unfold readN at hg
      split at hg
      · injection hg with hg; exact hg.symm
      · cases hg
    subst hg'
    obtain ⟨x, hx, h⟩ := bind_ok_iff.mp h
    obtain ⟨y, hy, h⟩ := bind_ok_iff.mp h
    by_cases hj0 : j = 0
    · subst hj0
      refine ⟨x, hx, fun hk => ?_⟩
      subst hk
      unfold IcKind.image at hy
      dsimp only at hy
      split at hy
      · cases hy
      · omega
    · have := ih (i + 1) _ h (j - 1) (by omega)
      rw [show i + 1 + (j - 1) = i + j by omega] at this
      exact this

/-- What a reader returns for the data of a group. -/
theorem icRead_iff (k : IcKind) (get : Nat → Res Bytes) (d F : Bytes) :
    icRead k get d = .ok F ↔ 6 ≤ d.length ∧ 6 + 14 * rd 2 d 4 ≤ d.length ∧
      ∃ L : List (Bytes × Bytes), L.length = rd 2 d 4 ∧ (∀ j p, L[j]? = some p → ImgAt k get (grpEntry d j) p) ∧
        F = icoFile (slice d 0 4) L := by
  unfold icRead
  by_cases h6 : d.length < 6
  · rw [throwIf, if_pos h6]
    exact ⟨fun h => (by cases h), fun h => by omega⟩
  · rw [throwIf, if_neg h6, ok_bind, readU_ok (by omega), ok_bind]
    by_cases hc : d.length < 6 + rd 2 d 4 * 14
    · rw [throwIf, if_pos hc]
      exact ⟨fun h => (by cases h), fun h => by omega⟩
    · rw [throwIf, if_neg hc, ok_bind, readN_ok (by omega), ok_bind]
      have fwd : ∀ L : List (Bytes × Bytes), L.length = rd 2 d 4 → (∀ j p, L[j]? = some p → ImgAt k get (grpEntry d j) p) →
          (do let acc ← icHeaders k get d (rd 2 d 4) 0 (6 + 16 * rd 2 d 4) (slice d 0 6)
              icBodies k get d (rd 2 d 4) 0 acc) = .ok (icoFile (slice d 0 4) L) := by
        intro L hL h
        have hb : rd 2 d 4 < 65536 := rd_lt 2 d 4
        have e0 := icHeaders_eq k get d L 0 (6 + 16 * L.length) (slice d 0 6) (by omega) (fun j p hp => by rw [Nat.zero_add]; exact h j p hp)
        rw [show w32 (6 + 16 * L.length) = 6 + 16 * L.length by unfold w32; omega] at e0
        rw [← hL, e0, ok_bind, icBodies_eq k get d L 0 _ (by omega) (fun j p hp => by rw [Nat.zero_add]; exact h j p hp)]
        refine congrArg Except.ok ?_
        unfold icoFile
        rw [hL, leBytes_rd (by omega), ← slice_add]
      constructor
      · intro h
        refine ⟨by omega, by omega, ?_⟩
        obtain ⟨acc, ha, hb⟩ := bind_ok_iff.mp h
        have hx := icBodies_ok k get d F _ _ _ hb
        let v : Nat → Bytes := fun j => match get (rd 2 (grpEntry d j) 12) with | .ok x => x | .error _ => []
        have hv : ∀ j, j < rd 2 d 4 → get (rd 2 (grpEntry d j) 12) = .ok (v j) ∧ (k = .cursor → 4 ≤ (v j).length) := by
          intro j hj
          obtain ⟨x, h1, h2⟩ := hx j hj
          rw [Nat.zero_add] at h1
          have : v j = x := by show (match get (rd 2 (grpEntry d j) 12) with | .ok x => x | .error _ => []) = x; rw [h1]
          rw [this]
          exact ⟨h1, h2⟩
        have hL : ∀ j p, ((List.range (rd 2 d 4)).map fun j => (k.fileEntry (grpEntry d j) (v j), k.bodyOf (v j)))[j]? = some p →
            ImgAt k get (grpEntry d j) p := by
          intro j p hp
          rw [List.getElem?_map] at hp
          cases hr : (List.range (rd 2 d 4))[j]? with
          | none => rw [hr] at hp; cases hp
          | some j' =>
            rw [hr] at hp
            obtain ⟨hlt, hj'⟩ := List.getElem?_eq_some_iff.mp hr
            rw [List.getElem_range] at hj'
            subst hj'
            rw [List.length_range] at hlt
            cases hp
            exact ⟨v j, (hv j hlt).1, (hv j hlt).2, rfl⟩
        have hlen : ((List.range (rd 2 d 4)).map fun j => (k.fileEntry (grpEntry d j) (v j), k.bodyOf (v j))).length = rd 2 d 4 := by
          rw [List.length_map, List.length_range]
        refine ⟨_, hlen, hL, ?_⟩
        have := fwd _ hlen hL
        rw [h] at this
        injection this
      · rintro ⟨_, _, L, hL, h, rfl⟩
        exact fwd L hL h

end PE
