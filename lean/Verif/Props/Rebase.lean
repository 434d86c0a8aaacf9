/-
Properties of `rebase_image` (C26).
-/
import Verif.Lemmas.Rebase
import Verif.Props.Reloc
namespace PE

theorem rebase_ok_iff {p p' : Image} (hb : HeadersBelow p) {tables : List RelocTable} {nb : Nat} :
    p.rebase tables nb = .ok p' ↔ ∃ ls : List Loc, (relocTargets tables).map p.target = ls.map some ∧
      p' = (ls.foldl (fun q l => q.bump l (p.kind.wrap (sub64 (w64 nb) p.nt.imageBase))) p).setImageBase64 nb := by
  unfold Image.rebase
  dsimp only
  rw [rebaseTables_list]
  rw [bind_ok_iff]
  constructor
  · rintro ⟨q, hq, h⟩
    obtain ⟨ls, h1, h2⟩ := (rebaseList_iff hb (relocTargets_lt tables)).mp hq
    injection h with h
    exact ⟨ls, h1, by rw [← h, h2]⟩
  · rintro ⟨ls, h1, h2⟩
    exact ⟨_, (rebaseList_iff hb (relocTargets_lt tables)).mpr ⟨ls, h1, rfl⟩, by rw [h2]⟩

/-- C26: rebasing is safe: whatever the tables, it either throws or completes. -/
theorem C26_safe_partial (p : Image) (hb : HeadersBelow p) (tables : List RelocTable) (nb : Nat) (u : UB) :
    p.rebase tables nb ≠ .error (.ub u) := by
  have : NoUB (p.rebase tables nb) := by
    unfold Image.rebase
    dsimp only
    rw [rebaseTables_list]
    exact NoUB.bind (rebaseList_noUB hb (relocTargets_lt tables)) (fun q _ => NoUB.ok _)
  exact this u

/-- C26: rebasing to a new base and then back to the old one restores the image completely. -/
theorem C26_inverse_partial (p p' : Image) (hb : HeadersBelow p) (tables : List RelocTable) (nb : Nat)
    (hbase : p.nt.imageBase < 2 ^ (8 * p.kind.ptr))
    (hd : DisjointTargets p.kind.ptr (relocTargets tables)) (h : p.rebase tables nb = .ok p') :
    p'.rebase tables p.nt.imageBase = .ok p := by
  obtain ⟨ls, h1, h2⟩ := (rebase_ok_iff hb).mp h
  have hok : ∀ l ∈ ls, p.LocOk l p.kind.ptr := by
    intro l hl
    obtain ⟨r, _, h⟩ := (map_some_mem h1).1 l hl
    exact target_ok h
  generalize hq : ls.foldl (fun q l => q.bump l (p.kind.wrap (sub64 (w64 nb) p.nt.imageBase))) p = q at h2
  have hs : SameShape p q := by rw [← hq]; exact foldl_bump_shape hok
  have hb' : HeadersBelow p' := by rw [h2]; exact fun s hm => hb.shape hs s hm
  refine (rebase_ok_iff hb').mpr ⟨ls, ?_, ?_⟩
  · rw [← h1, h2]
    exact List.map_congr_left (fun r _ => by rw [target_setBase, target_shape hs])
  · have hk : p'.kind = p.kind := by rw [h2]; exact hs.kind
    have hbase' : p'.nt.imageBase = p.kind.wrap nb := by rw [h2]; show q.kind.wrap nb = _; rw [hs.kind]
    rw [hk, hbase', h2, foldl_bump_setBase, ← hq, foldl_bump_inverse hok (target_pairwise h1 hd)]
    · have hw : p.kind.wrap p.nt.imageBase = p.nt.imageBase := by
        revert hbase
        generalize p.nt.imageBase = x
        cases p.kind
        · exact fun hx => Nat.mod_eq_of_lt hx
        · exact fun hx => Nat.mod_eq_of_lt hx
      unfold Image.setImageBase64
      dsimp only
      rw [hw]
    · clear hq h2 h1 h hbase' hk
      cases hk : p.kind
      · rw [hk] at hbase
        simp only [Kind.wrap, Kind.ptr, w32, w64, sub64] at *
        omega
      · rw [hk] at hbase
        simp only [Kind.wrap, Kind.ptr, w32, w64, sub64] at *
        omega

/-- C26: a rebase changes only bytes inside relocated words and the stored image base: every other byte of the
    headers and of the sections, all sizes and all section headers stay the same. -/
theorem C26_frame_partial (p p' : Image) (hb : HeadersBelow p) (tables : List RelocTable) (nb : Nat)
    (h : p.rebase tables nb = .ok p') :
    p'.kind = p.kind ∧ p'.nt = { p.nt with imageBase := p.kind.wrap nb } ∧
    p'.hdrData.length = p.hdrData.length ∧
    p'.secs.map (fun s => (({ s with data := [] } : Sec), s.data.length)) =
      p.secs.map (fun s => (({ s with data := [] } : Sec), s.data.length)) ∧
    ∀ l a, p.addrOf l = some a → (∀ r ∈ relocTargets tables, a < r ∨ r + p.kind.ptr ≤ a) →
      p'.byteAt l = p.byteAt l := by
  obtain ⟨ls, h1, h2⟩ := (rebase_ok_iff hb).mp h
  have hok : ∀ l ∈ ls, p.LocOk l p.kind.ptr := by
    intro l hl
    obtain ⟨r, _, h⟩ := (map_some_mem h1).1 l hl
    exact target_ok h
  have hs := foldl_bump_shape (d := p.kind.wrap (sub64 (w64 nb) p.nt.imageBase)) hok
  refine ⟨by rw [h2]; exact hs.kind, ?_, by rw [h2]; exact hs.hdr, by rw [h2]; exact hs.secs, ?_⟩
  · rw [h2]
    show ({ Image.nt _ with imageBase := Kind.wrap _ nb } : NtHdr) = _
    rw [hs.nt, hs.kind]
  · intro l a ha hr
    have : p'.byteAt l = (ls.foldl (fun q l => q.bump l (p.kind.wrap (sub64 (w64 nb) p.nt.imageBase))) p).byteAt l := by
      rw [h2]; cases l <;> rfl
    rw [this]
    refine byteAt_foldl hok ?_
    intro m hm hin
    obtain ⟨r, hrm, hrt⟩ := (map_some_mem h1).1 m hm
    have := hr r hrm
    rcases target_addr hrt with rfl | ⟨i, s, hs, hle, rfl⟩
    · cases l with
      | hdr off => unfold Loc.Inside at hin; simp only [Image.addrOf, Option.some.injEq] at ha; omega
      | sec => exact hin
    · cases l with
      | hdr => exact hin
      | sec j off =>
        obtain ⟨rfl, h3, h4⟩ := hin
        simp only [Image.addrOf, hs, Option.map_some, Option.some.injEq] at ha
        omega

/-- C26: each relocated word changes by exactly the difference of the bases (in pointer-width arithmetic), as seen
    through the image's own typed reads. -/
theorem C26_value_partial (p p' : Image) (hb : HeadersBelow p) (tables : List RelocTable) (nb : Nat)
    (hbase : p.nt.imageBase < 2 ^ (8 * p.kind.ptr)) (hnb : nb < 2 ^ (8 * p.kind.ptr))
    (hd : DisjointTargets p.kind.ptr (relocTargets tables)) (h : p.rebase tables nb = .ok p') :
    p'.nt.imageBase = nb ∧
    ∀ r ∈ relocTargets tables, ∃ v v', p.readInt p.kind.ptr r .raw true = .ok v ∧
      p'.readInt p.kind.ptr r .raw true = .ok v' ∧
      (v' + p.nt.imageBase) % 2 ^ (8 * p.kind.ptr) = (v + nb) % 2 ^ (8 * p.kind.ptr) := by
  obtain ⟨ls, h1, h2⟩ := (rebase_ok_iff hb).mp h
  have hok : ∀ l ∈ ls, p.LocOk l p.kind.ptr := by
    intro l hl
    obtain ⟨r, _, h⟩ := (map_some_mem h1).1 l hl
    exact target_ok h
  have hs := foldl_bump_shape (d := p.kind.wrap (sub64 (w64 nb) p.nt.imageBase)) hok
  constructor
  · rw [h2]
    show Kind.wrap _ nb = nb
    rw [hs.kind, Kind.wrap_eq]
    exact Nat.mod_eq_of_lt (by rw [show (256 : Nat) = 2 ^ 8 from rfl, ← Nat.pow_mul]; exact hnb)
  · intro r hr
    have hr32 := relocTargets_lt tables r hr
    obtain ⟨l, hl, ht⟩ := (map_some_mem h1).2 r hr
    have hk : p'.kind = p.kind := by rw [h2]; exact hs.kind
    have hread := target_read hr32 ht
    have ht' : p'.target r = some l := by rw [h2, target_setBase, target_shape hs, ht]
    have hread' := target_read hr32 ht'
    rw [hk] at hread'
    have hg : p'.getLoc l p.kind.ptr = leBytes p.kind.ptr (p.kind.wrap (fromLE (p.getLoc l p.kind.ptr) +
        p.kind.wrap (sub64 (w64 nb) p.nt.imageBase))) := by
      rw [← getLoc_foldl_same hok (target_pairwise h1 hd) hl, h2]
      cases l <;> rfl
    have hlen := getLoc_length (hok l hl)
    refine ⟨fromLE (p.getLoc l p.kind.ptr), fromLE (p'.getLoc l p.kind.ptr), ?_, ?_, ?_⟩
    · unfold Image.readInt; rw [hread]; rfl
    · unfold Image.readInt; rw [hread']; rfl
    · rw [hg, fromLE_leBytes]
      have hlt := fromLE_lt (p.getLoc l p.kind.ptr)
      rw [hlen] at hlt
      generalize fromLE (p.getLoc l p.kind.ptr) = v at *
      clear hg hread hread' ht' ht h2 h1 h
      cases hk : p.kind
      · rw [hk] at hbase hnb hlt
        simp only [Kind.wrap, Kind.ptr, w32, w64, sub64] at *
        omega
      · rw [hk] at hbase hnb hlt
        simp only [Kind.wrap, Kind.ptr, w32, w64, sub64] at *
        omega

/-- Success is decided by the targets alone: a rebase completes exactly when the word at every target can be read
    through the raw view of the image. -/
theorem C26_completes_partial (p : Image) (hb : HeadersBelow p) (tables : List RelocTable) (nb : Nat) :
    (∃ p', p.rebase tables nb = .ok p') ↔
      ∀ r ∈ relocTargets tables, ∃ v, p.readT p.kind.ptr r .raw true = .ok v := by
  constructor
  · rintro ⟨p', h⟩ r hr
    obtain ⟨ls, h1, h2⟩ := (rebase_ok_iff hb).mp h
    obtain ⟨l, hl, ht⟩ := (map_some_mem h1).2 r hr
    exact ⟨_, target_read (relocTargets_lt tables r hr) ht⟩
  · intro h
    have key : ∀ rs : List Nat, (∀ r ∈ rs, ∃ l, p.target r = some l) → ∃ ls : List Loc, rs.map p.target = ls.map some := by
      intro rs
      induction rs with
      | nil => intro _; exact ⟨[], rfl⟩
      | cons r rs ih =>
        intro h
        obtain ⟨l, hl⟩ := h r (by simp)
        obtain ⟨ls, hls⟩ := ih (fun x hx => h x (by simp [hx]))
        exact ⟨l :: ls, by simp [hl, hls]⟩
    obtain ⟨ls, hls⟩ := key (relocTargets tables) (by
      intro r hr
      obtain ⟨v, hv⟩ := h r hr
      exact readT_target (relocTargets_lt tables r hr) hv)
    exact ⟨_, (rebase_ok_iff hb).mpr ⟨ls, hls, rfl⟩⟩

/-- The type of a relocation matters only through being ABSOLUTE or not: a HIGH, LOW or HIGHLOW entry of a 64-bit
    image is applied to the full word like DIR64. -/
theorem C26_type_ignored (p : Image) (nb : Nat) (tables : List RelocTable) (f : Nat → Nat) (hf : ∀ t, f t = 0 ↔ t = 0) :
    p.rebase (tables.map (fun t => { t with relocs := t.relocs.map (fun e => { e with type := f e.type }) })) nb =
      p.rebase tables nb := by
  unfold Image.rebase
  dsimp only
  rw [rebaseTables_list, rebaseTables_list]
  have : relocTargets (tables.map (fun t => { t with relocs := t.relocs.map (fun e => { e with type := f e.type }) })) =
      relocTargets tables := by
    unfold relocTargets
    rw [List.flatMap_map]
    congr 1
    funext t
    dsimp only
    rw [List.filter_map, List.map_map]
    have hfil : (fun e : RelocEntry => decide (e.type ≠ 0)) ∘ (fun e : RelocEntry => { e with type := f e.type }) =
        (fun e : RelocEntry => decide (e.type ≠ 0)) := by
      funext e
      simp only [Function.comp]
      rw [decide_eq_decide]
      exact not_congr (hf e.type)
    rw [hfil]
    rfl
  rw [this]

/-- Tables that relocate one word in each section of the demo image, with one padding entry. -/
def demoTables : List RelocTable := [⟨0x1000, [⟨0, 3⟩, ⟨0, 0⟩]⟩, ⟨0x2000, [⟨1, 3⟩]⟩]

example : HeadersBelow demoImage2 ∧ demoImage2.nt.imageBase < 2 ^ (8 * demoImage2.kind.ptr) ∧
    DisjointTargets demoImage2.kind.ptr (relocTargets demoTables) ∧ relocTargets demoTables = [0x1000, 0x2001] := by decide

/-- The demo image is rebased: its words are moved and its base is changed. -/
example : ∃ p', demoImage2.rebase demoTables 0x10000000 = .ok p' ∧ p' ≠ demoImage2 := by
  obtain ⟨p', h1, h2⟩ := exists_of_okAnd (x := demoImage2.rebase demoTables 0x10000000)
    (f := fun r => decide (r.nt.imageBase = 0x10000000)) (by decide +kernel)
  refine ⟨p', h1, ?_⟩
  rintro rfl
  exact absurd (of_decide_eq_true h2) (by decide)

/-- Disjointness is needed: with two overlapping targets the words interfere (the second read sees bytes the
    first correction changed), and going back in the same order need not restore the image. -/
theorem C26_overlap_not_inverse : ∃ (p p' : Image) (tables : List RelocTable) (nb : Nat), HeadersBelow p ∧
    p.nt.imageBase < 2 ^ (8 * p.kind.ptr) ∧ p.rebase tables nb = .ok p' ∧ p'.rebase tables p.nt.imageBase ≠ .ok p := by
  obtain ⟨p', h1, h2⟩ := exists_of_okAnd (x := demoImage2.rebase [⟨0x2000, [⟨0, 3⟩, ⟨1, 3⟩]⟩] 0x12345678)
    (f := fun r => decide (r.rebase [⟨0x2000, [⟨0, 3⟩, ⟨1, 3⟩]⟩] demoImage2.nt.imageBase ≠ .ok demoImage2)) (by decide +kernel)
  exact ⟨demoImage2, p', _, _, by decide, by decide, h1, of_decide_eq_true h2⟩

end PE
