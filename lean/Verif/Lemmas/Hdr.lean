/-
The rebuilders neither read nor change the header bytes of an image (as far as they work on sections).
-/
import Verif.Lemmas.Mono
namespace PE

/-- The image with other header bytes. -/
def Image.withHdr (p : Image) (h : Bytes) : Image := { p with hdrData := h }

/-- The image without its header bytes: what is read from it is read from sections only. -/
def Image.noHdr (p : Image) : Image := { p with hdrData := [] }

theorem noHdr_withHdr (p : Image) : p.noHdr.withHdr p.hdrData = p := rfl

/-- `y` does the same as `x` on an image with the header bytes `h`. -/
def SameBut (h : Bytes) (x y : Res Image) : Prop := y = x.map (fun v => v.withHdr h)

/-- The same with a directory in the result. -/
def SameBut2 {α : Type} (h : Bytes) (x y : Res (Image × α)) : Prop := y = x.map (fun v => (v.1.withHdr h, v.2))

theorem map_bind_res {α β γ : Type} (x : Res α) (f : α → Res β) (g : β → γ) :
    (x >>= f).map g = x >>= fun v => (f v).map g := by
  cases x <;> rfl

theorem bind_map_res {α β γ : Type} (x : Res α) (f : α → β) (g : β → Res γ) :
    (x.map f) >>= g = x >>= fun v => g (f v) := by
  cases x <;> rfl

theorem SameBut.bind' {α : Type} {h : Bytes} {x : Res α} {f g : α → Res Image} (hf : ∀ v, SameBut h (f v) (g v)) :
    SameBut h (x >>= f) (x >>= g) := by
  unfold SameBut
  rw [map_bind_res]
  exact congrArg _ (funext fun v => hf v)

theorem SameBut2.bind' {α β : Type} {h : Bytes} {x : Res β} {f g : β → Res (Image × α)} (hf : ∀ v, SameBut2 h (f v) (g v)) :
    SameBut2 h (x >>= f) (x >>= g) := by
  unfold SameBut2
  rw [map_bind_res]
  exact congrArg _ (funext fun v => hf v)

theorem SameBut2.bind {α : Type} {h : Bytes} {x y : Res Image} {f g : Image → Res (Image × α)} (hx : SameBut h x y)
    (hf : ∀ v, SameBut2 h (f v) (g (v.withHdr h))) : SameBut2 h (x >>= f) (y >>= g) := by
  unfold SameBut2
  rw [map_bind_res, hx, bind_map_res]
  exact congrArg _ (funext fun v => hf v)

theorem SameBut2.ite {α : Type} {h : Bytes} {c : Prop} [Decidable c] {x y x' y' : Res (Image × α)}
    (h1 : c → SameBut2 h x x') (h2 : ¬ c → SameBut2 h y y') :
    SameBut2 h (if c then x else y) (if c then x' else y') := by
  by_cases hc : c
  · rw [if_pos hc, if_pos hc]; exact h1 hc
  · rw [if_neg hc, if_neg hc]; exact h2 hc

theorem setVirtualSize_hdr (p : Image) (h : Bytes) (i n : Nat) :
    SameBut h (p.setSectionVirtualSize i n) ((p.withHdr h).setSectionVirtualSize i n) := by
  unfold Image.setSectionVirtualSize SameBut
  show (match p.secs[i]? with | none => _ | some s => _) = _
  cases p.secs[i]? with
  | none => rfl
  | some s =>
    dsimp only
    by_cases h1 : i + 1 ≠ p.secs.length
    · rw [if_pos h1, if_pos (show i + 1 ≠ (p.withHdr h).secs.length from h1)]; rfl
    · rw [if_neg h1, if_neg (show ¬ i + 1 ≠ (p.withHdr h).secs.length from h1)]
      by_cases h2 : n = 0
      · rw [if_pos h2, if_pos h2]
        by_cases h3 : s.empty = true
        · rw [if_pos h3, if_pos h3]; rfl
        · rw [if_neg h3, if_neg h3]
          unfold Image.updateImageSize Image.withHdr
          dsimp only
          split <;> rfl
      · rw [if_neg h2, if_neg h2]
        unfold Image.updateImageSize Image.withHdr
        dsimp only
        split <;> rfl

theorem recalculate_hdr (p : Image) (h : Bytes) (i : Nat) (b : Bool) :
    SameBut h (p.recalculateSectionSizes i b) ((p.withHdr h).recalculateSectionSizes i b) := by
  unfold Image.recalculateSectionSizes
  show SameBut h _ (match p.secs[i]? with | none => _ | some s => _)
  cases p.secs[i]? with
  | none => rfl
  | some s =>
    refine SameBut.bind' fun s' => ?_
    dsimp only
    have e : (p.withHdr h).secs = p.secs := rfl
    have e2 : (p.withHdr h).nt = p.nt := rfl
    rw [e, e2]
    generalize (if b = true ∧ i + 1 ≠ p.secs.length then
      ({ s' with data := (stripKeepOne s'.data.reverse).reverse, rawSize := w32 (stripKeepOne s'.data.reverse).reverse.length } : Sec)
      else s') = t
    by_cases hc : alignUp t.vsize p.nt.secAlign < alignUp t.rawSize p.nt.fileAlign
    · rw [if_pos hc, if_pos hc]
      exact setVirtualSize_hdr ({ p with secs := p.secs.set i t } : Image) h i _
    · rw [if_neg hc, if_neg hc]
      rfl

theorem finishDir_hdr (p : Image) (h : Bytes) (i : Nat) (s : Sec) (d : Bytes) (strip save : Bool) (id : Nat) (dir : Nat × Nat) :
    SameBut2 h (p.finishDir i s d strip save id dir) ((p.withHdr h).finishDir i s d strip save id dir) :=
  SameBut2.bind (recalculate_hdr _ h i strip) fun _ => SameBut2.ite
    (fun _ => SameBut2.bind' fun _ => SameBut2.bind' fun _ => rfl) fun _ => rfl

theorem spaceCheck_hdr (p : Image) (h : Bytes) (i : Nat) (s : Sec) (n : Nat) :
    (p.withHdr h).spaceCheck i s n = p.spaceCheck i s n := rfl

theorem rebuildExports_hdr (p : Image) (h : Bytes) (info : ExportInfo) (l : List ExportFn) (i off : Nat) (save strip : Bool) :
    SameBut2 h (p.rebuildExports info l i off save strip) ((p.withHdr h).rebuildExports info l i off save strip) := by
  unfold Image.rebuildExports
  show SameBut2 h _ (match p.secs[i]? with | none => _ | some s => _)
  cases p.secs[i]? with
  | none => rfl
  | some s =>
    exact SameBut2.bind' fun _ => SameBut2.bind' fun _ => SameBut2.bind' fun _ => SameBut2.bind' fun _ => SameBut2.bind' fun _ =>
      SameBut2.bind' fun _ => finishDir_hdr _ _ _ _ _ _ _ _ _

theorem rebuildResources_hdr (p : Image) (h : Bytes) (r : ResDir) (i off : Nat) (save strip : Bool) :
    SameBut2 h (p.rebuildResources r i off save strip) ((p.withHdr h).rebuildResources r i off save strip) := by
  unfold Image.rebuildResources
  show SameBut2 h _ (match p.secs[i]? with | none => _ | some s => _)
  cases p.secs[i]? with
  | none => rfl
  | some s =>
    exact SameBut2.bind' fun _ => SameBut2.bind' fun _ => SameBut2.bind' fun _ => SameBut2.bind' fun _ =>
      finishDir_hdr _ _ _ _ _ _ _ _ _

theorem rebuildBound_hdr (p : Image) (h : Bytes) (l : List BoundMod) (i off : Nat) (save strip : Bool) :
    SameBut2 h (p.rebuildBound l i off save strip) ((p.withHdr h).rebuildBound l i off save strip) := by
  unfold Image.rebuildBound
  show SameBut2 h _ (match p.secs[i]? with | none => _ | some s => _)
  cases p.secs[i]? with
  | none => rfl
  | some s =>
    exact SameBut2.bind' fun _ => SameBut2.bind' fun _ => finishDir_hdr _ _ _ _ _ _ _ _ _

theorem tableVa_hdr (p : Image) (h : Bytes) (w : Bool) (l : List Nat) (a b c : Nat) :
    (p.withHdr h).tableVa w l a b c = p.tableVa w l a b c := rfl

theorem writeLocks_hdr (p : Image) (h : Bytes) (d : Bytes) (pos : Nat) (l : List Nat) :
    (p.withHdr h).writeLocks d pos l = p.writeLocks d pos l := by
  induction l generalizing d pos with
  | nil => rfl
  | cons x l ih =>
    unfold Image.writeLocks
    simp only [ih]
    rfl

theorem rebuildConfig_hdr (p : Image) (h : Bytes) (c : ConfigInfo) (i off : Nat) (wse wlock save strip : Bool) :
    SameBut2 h (p.rebuildConfig c i off wse wlock save strip) ((p.withHdr h).rebuildConfig c i off wse wlock save strip) := by
  unfold Image.rebuildConfig
  simp only [writeLocks_hdr]
  show SameBut2 h _ (match p.secs[i]? with | none => _ | some s => _)
  cases p.secs[i]? with
  | none => rfl
  | some s =>
    refine SameBut2.bind' fun _ => SameBut2.bind' fun _ => SameBut2.bind' fun _ => SameBut2.bind' fun _ => SameBut2.bind' fun _ => ?_
    exact SameBut2.ite (fun _ => SameBut2.bind' fun _ => finishDir_hdr _ _ _ _ _ _ _ _ _) fun _ => finishDir_hdr _ _ _ _ _ _ _ _ _

theorem rebuildRelocations_hdr (p : Image) (h : Bytes) (l : List RelocTable) (i off : Nat) (save strip : Bool) :
    SameBut2 h (p.rebuildRelocations l i off save strip) ((p.withHdr h).rebuildRelocations l i off save strip) := by
  unfold Image.rebuildRelocations
  show SameBut2 h _ (match p.secs[i]? with | none => _ | some s => _)
  cases p.secs[i]? with
  | none => rfl
  | some s =>
    exact SameBut2.bind' fun _ => SameBut2.bind' fun _ => SameBut2.bind (recalculate_hdr _ h i strip) fun _ => SameBut2.ite
      (fun _ => SameBut2.bind' fun _ => SameBut2.bind' fun _ => rfl) fun _ => rfl

/-! Imports, without rewriting of kept tables -/

/-- The state of the import writer with other header bytes. -/
def ImportSt.withHdr (st : ImportSt) (h : Bytes) : ImportSt := { st with img := st.img.withHdr h }

/-- The same for steps of the import writer. -/
def SameSt (h : Bytes) (x y : Res ImportSt) : Prop := y = x.map (fun v => v.withHdr h)

theorem SameSt.bind {h : Bytes} {x y : Res ImportSt} {f g : ImportSt → Res ImportSt} (hx : SameSt h x y)
    (hf : ∀ v, SameSt h (f v) (g (v.withHdr h))) : SameSt h (x >>= f) (y >>= g) := by
  unfold SameSt
  rw [map_bind_res, hx, bind_map_res]
  exact congrArg _ (funext fun v => hf v)

theorem SameSt.bindI {h : Bytes} {x y : Res Image} {f g : Image → Res ImportSt} (hx : SameBut h x y)
    (hf : ∀ v, SameSt h (f v) (g (v.withHdr h))) : SameSt h (x >>= f) (y >>= g) := by
  unfold SameSt
  rw [map_bind_res, hx, bind_map_res]
  exact congrArg _ (funext fun v => hf v)

theorem SameSt.ite {h : Bytes} {c : Prop} [Decidable c] {x y x' y' : Res ImportSt}
    (h1 : c → SameSt h x x') (h2 : ¬ c → SameSt h y y') : SameSt h (if c then x else y) (if c then x' else y') := by
  by_cases hc : c
  · rw [if_pos hc, if_pos hc]; exact h1 hc
  · rw [if_neg hc, if_neg hc]; exact h2 hc

theorem rawPut_hdr (p : Image) (h : Bytes) (i pos : Nat) (x : Bytes) :
    SameBut h (p.rawPut i pos x) ((p.withHdr h).rawPut i pos x) := by
  unfold Image.rawPut Image.writeLoc
  dsimp only
  show SameBut h _ (match p.secs[i]? with | none => _ | some s => _)
  cases p.secs[i]? with
  | none => rfl
  | some s => exact SameBut.bind' fun _ => rfl

theorem putIat_hdr (st : ImportSt) (h : Bytes) (i : Nat) {pl : ImportPlan} (hp : pl.rewIat = false) (adv : Bool) (v : Nat) :
    SameSt h (st.putIat i pl adv v) ((st.withHdr h).putIat i pl adv v) := by
  unfold ImportSt.putIat
  rw [hp]
  exact SameSt.bindI (rawPut_hdr _ h _ _ _) fun _ => rfl

theorem putOrig_hdr (st : ImportSt) (h : Bytes) (i : Nat) {pl : ImportPlan} (hp : pl.rewOrig = false) (v : Nat) :
    SameSt h (st.putOrig i pl v) ((st.withHdr h).putOrig i pl v) := by
  unfold ImportSt.putOrig
  rw [hp]
  exact SameSt.bindI (rawPut_hdr _ h _ _ _) fun _ => rfl

theorem fnOrig_hdr (st : ImportSt) (h : Bytes) (i : Nat) {pl : ImportPlan} (hp : pl.rewOrig = false) (v : Nat) :
    SameSt h (st.fnOrig i pl v) ((st.withHdr h).fnOrig i pl v) :=
  SameSt.ite (fun _ => putOrig_hdr st h i hp v) fun _ => rfl

theorem fnIat_hdr (st : ImportSt) (h : Bytes) (i : Nat) {pl : ImportPlan} (hp : pl.rewIat = false) (f : ImportFn) (v : Nat) :
    SameSt h (st.fnIat i pl f v) ((st.withHdr h).fnIat i pl f v) :=
  SameSt.ite (fun _ => rfl) fun _ => SameSt.ite (fun _ => putIat_hdr st h i hp _ _) fun _ => putIat_hdr st h i hp _ _

theorem endIat_hdr (st : ImportSt) (h : Bytes) (i : Nat) {pl : ImportPlan} (hp : pl.rewIat = false) :
    SameSt h (st.endIat i pl) ((st.withHdr h).endIat i pl) :=
  SameSt.ite (fun _ => rfl) fun _ => putIat_hdr st h i hp _ _

theorem putFn_hdr (st : ImportSt) (h : Bytes) (i va : Nat) {pl : ImportPlan} (hp : pl.rewIat = false) (hq : pl.rewOrig = false)
    (f : ImportFn) : SameSt h (st.putFn i va pl f) ((st.withHdr h).putFn i va pl f) :=
  SameSt.bind (fnIat_hdr st h i hp f _) fun st => SameSt.bind (fnOrig_hdr st h i hq _) fun _ =>
    SameSt.ite (fun _ => SameSt.bindI (rawPut_hdr _ h _ _ _) fun _ => SameSt.bindI (rawPut_hdr _ h _ _ _) fun _ => rfl) fun _ => rfl

theorem putFns_hdr (h : Bytes) (i va : Nat) {pl : ImportPlan} (hp : pl.rewIat = false) (hq : pl.rewOrig = false)
    (l : List ImportFn) (st : ImportSt) : SameSt h (st.putFns i va pl l) ((st.withHdr h).putFns i va pl l) := by
  induction l generalizing st with
  | nil => rfl
  | cons f l ih => exact SameSt.bind (putFn_hdr st h i va hp hq f) fun st => ih st

theorem plan_noRewrite {c : ImportCfg} (hc : c.rewrite = false) (va iat orig : Nat) (l : ImportLib) :
    (importPlan c va iat orig l).rewIat = false ∧ (importPlan c va iat orig l).rewOrig = false := by
  unfold importPlan
  rw [hc]
  dsimp only
  split <;> simp

theorem putLib_hdr (st : ImportSt) (h : Bytes) {c : ImportCfg} (hc : c.rewrite = false) (i va desc : Nat) (l : ImportLib) :
    SameSt h (st.putLib c i va desc l) ((st.withHdr h).putLib c i va desc l) := by
  obtain ⟨h1, h2⟩ := plan_noRewrite hc va st.iat st.orig l
  exact SameSt.bindI (rawPut_hdr _ h _ _ _) fun _ => SameSt.bindI (rawPut_hdr _ h _ _ _) fun _ =>
    SameSt.bind (putFns_hdr h i va h1 h2 l.funcs _) fun st => SameSt.bind (endIat_hdr st h i h1) fun st => fnOrig_hdr st h i h2 0

theorem putLibs_hdr (h : Bytes) {c : ImportCfg} (hc : c.rewrite = false) (i va desc : Nat) (l : List ImportLib) (st : ImportSt) :
    SameSt h (st.putLibs c i va desc l) ((st.withHdr h).putLibs c i va desc l) := by
  induction l generalizing st desc with
  | nil => exact SameSt.bindI (rawPut_hdr _ h _ _ _) fun _ => rfl
  | cons f l ih => exact SameSt.bind (putLib_hdr st h hc i va desc f) fun st => ih _ st

theorem rebuildImports_hdr (p : Image) (h : Bytes) (ls : List ImportLib) (i : Nat) {c : ImportCfg} (hc : c.rewrite = false)
    (off : Nat) (save zero strip : Bool) :
    SameBut2 h (p.rebuildImports ls i c off save zero strip) ((p.withHdr h).rebuildImports ls i c off save zero strip) := by
  unfold Image.rebuildImports
  show SameBut2 h _ (match p.secs[i]? with | none => _ | some s => _)
  cases p.secs[i]? with
  | none => rfl
  | some s =>
    refine SameBut2.bind' fun _ => ?_
    have e := putLibs_hdr h hc i s.va (w32 (w32 (importStrings ls) + off)) ls
      { img := { p with secs := p.secs.set i { s with data := growTo s.data (w32 (w32 ((1 + ls.length) * 20 +
          (if c.buildOrig || c.fill then w32 (importIatSize p.kind.ptr ls) * 2 else w32 (importIatSize p.kind.ptr ls)) + p.kind.ptr +
          w32 (importStrings ls)) + off)) } },
        str := off, iat := alignUp (w32 (w32 (importStrings ls) + off + (1 + ls.length) * 20)) p.kind.ptr,
        orig := w32 (alignUp (w32 (w32 (importStrings ls) + off + (1 + ls.length) * 20)) p.kind.ptr + w32 (importIatSize p.kind.ptr ls)) }
    unfold SameSt at e
    unfold SameBut2
    rw [map_bind_res]
    refine Eq.trans (congrArg (· >>= _) e) ?_
    rw [bind_map_res]
    refine congrArg _ (funext fun st => ?_)
    show (match st.img.secs[i]? with | none => _ | some s => _) = _
    cases st.img.secs[i]? with
    | none => rfl
    | some s' =>
      dsimp only
      have e2 := finishDir_hdr st.img h i s' (resize s'.data st.orig) strip save dirImport
        (w32 (s.va + w32 (off + w32 (importStrings ls))), sub32 (w32 ((1 + ls.length) * 20 +
          (if c.buildOrig || c.fill then w32 (importIatSize p.kind.ptr ls) * 2 else w32 (importIatSize p.kind.ptr ls)) + p.kind.ptr +
          w32 (importStrings ls))) (w32 (importStrings ls)))
      unfold SameBut2 at e2
      rw [map_bind_res]
      refine Eq.trans (congrArg (· >>= _) e2) ?_
      rw [bind_map_res]
      refine congrArg _ (funext fun v => ?_)
      obtain ⟨q, dir⟩ := v
      exact SameBut2.ite (fun _ => SameBut2.bind' fun _ => SameBut2.bind' fun _ => rfl) fun _ => rfl

/-! TLS -/

/-- The sections have the same addresses, and the header bytes are the same. -/
structure SameVas (p q : Image) : Prop where
  vas : q.secs.map Sec.va = p.secs.map Sec.va
  hdr : q.hdrData = p.hdrData

theorem SameVas.refl (p : Image) : SameVas p p := ⟨rfl, rfl⟩

theorem SameVas.trans {p q r : Image} (h : SameVas p q) (g : SameVas q r) : SameVas p r :=
  ⟨g.vas.trans h.vas, g.hdr.trans h.hdr⟩

theorem map_va_set {l : List Sec} {i : Nat} {s t : Sec} (h : l[i]? = some s) (e : t.va = s.va) :
    (l.set i t).map Sec.va = l.map Sec.va := by
  apply List.ext_getElem?
  intro k
  rw [List.getElem?_map, List.getElem?_map]
  by_cases hk : i = k
  · subst hk
    rw [List.getElem?_set_self (List.getElem?_eq_some_iff.mp h).1, h]
    simp [e]
  · rw [List.getElem?_set_ne hk]

theorem setVirtualSize_vas {p q : Image} {i n : Nat} (h : p.setSectionVirtualSize i n = .ok q) : SameVas p q := by
  unfold Image.setSectionVirtualSize at h
  cases hs : p.secs[i]? with
  | none => rw [hs] at h; simp [throwE] at h
  | some s =>
    rw [hs] at h
    dsimp only at h
    by_cases h1 : i + 1 ≠ p.secs.length
    · rw [if_pos h1] at h; simp [throwE] at h
    · rw [if_neg h1] at h
      have key : ∀ t : Sec, t.va = s.va → SameVas p ({ p with secs := p.secs.set i t } : Image).updateImageSize := by
        intro t ht
        unfold Image.updateImageSize
        dsimp only
        split <;> exact ⟨map_va_set hs ht, rfl⟩
      by_cases h2 : n = 0
      · rw [if_pos h2] at h
        by_cases h3 : s.empty = true
        · rw [if_pos h3] at h; simp [throwE] at h
        · rw [if_neg h3] at h
          rw [← Except.ok.inj h]
          exact key _ rfl
      · rw [if_neg h2] at h
        rw [← Except.ok.inj h]
        exact key _ rfl

theorem prepare_va {fa sa : Nat} {s t : Sec} (h : prepareSection fa sa s = .ok t) : t.va = s.va := by
  unfold prepareSection at h
  rw [throwIf_bind_ok_iff] at h
  have h := h.2
  split at h <;> (rw [← Except.ok.inj h])

theorem recalculate_vas {p q : Image} {i : Nat} {b : Bool} (h : p.recalculateSectionSizes i b = .ok q) : SameVas p q := by
  unfold Image.recalculateSectionSizes at h
  cases hs : p.secs[i]? with
  | none => rw [hs] at h; simp [ubE] at h
  | some s =>
    rw [hs] at h
    dsimp only at h
    rw [bind_ok_iff] at h
    obtain ⟨s', h1, h2⟩ := h
    have e := prepare_va h1
    generalize ht : (if b = true ∧ i + 1 ≠ p.secs.length then
      ({ s' with data := (stripKeepOne s'.data.reverse).reverse, rawSize := w32 (stripKeepOne s'.data.reverse).reverse.length } : Sec)
      else s') = t at h2
    have et : t.va = s.va := by
      rw [← ht]
      split <;> exact e
    have h3 : SameVas p { p with secs := p.secs.set i t } := ⟨map_va_set hs et, rfl⟩
    split at h2
    · exact h3.trans (setVirtualSize_vas h2)
    · rw [← Except.ok.inj h2]; exact h3

theorem expandSection_vas {p : Image} {r : Image × Bool} {i rva n : Nat} {e : ExpandType} (h : p.expandSection i rva n e = .ok r) :
    SameVas p r.1 := by
  unfold Image.expandSection at h
  cases hs : p.secs[i]? with
  | none => rw [hs] at h; simp [throwE] at h
  | some s =>
    rw [hs] at h
    dsimp only at h
    by_cases h1 : i + 1 ≠ p.secs.length
    · rw [if_pos h1] at h; simp [throwE] at h
    · rw [if_neg h1] at h
      cases e with
      | raw =>
        dsimp only at h
        rw [bind_ok_iff] at h
        obtain ⟨len, -, h2⟩ := h
        by_cases hl : len < n
        · rw [if_pos hl, bind_ok_iff] at h2
          obtain ⟨q, h3, h4⟩ := h2
          rw [← Except.ok.inj h4]
          have : SameVas p { p with secs := p.secs.set i { s with data := resize s.data (w32 (sub32 rva s.va + n)) } } :=
            ⟨map_va_set hs rfl, rfl⟩
          exact this.trans (recalculate_vas h3)
        · rw [if_neg hl] at h2
          rw [← Except.ok.inj h2]; exact SameVas.refl p
      | virt =>
        dsimp only at h
        rw [bind_ok_iff] at h
        obtain ⟨len, -, h2⟩ := h
        by_cases hl : len < n
        · rw [if_pos hl, bind_ok_iff] at h2
          obtain ⟨q, h3, h4⟩ := h2
          rw [← Except.ok.inj h4]
          exact setVirtualSize_vas h3
        · rw [if_neg hl] at h2
          rw [← Except.ok.inj h2]; exact SameVas.refl p

theorem expandLeft_vas (p : Image) (i rva n : Nat) (e : ExpandType) : SameVas p (p.expandLeft i rva n e) := by
  unfold Image.expandLeft
  cases hs : p.secs[i]? with
  | none => exact SameVas.refl p
  | some s =>
    cases e with
    | virt => exact SameVas.refl p
    | raw =>
      dsimp only
      cases p.dataLenSec s rva .raw with
      | error _ => exact SameVas.refl p
      | ok len =>
        dsimp only
        split
        · exact ⟨map_va_set hs rfl, rfl⟩
        · exact SameVas.refl p

theorem expandQuiet_vas {p q : Image} {rva n : Nat} {e : ExpandType} (h : p.expandQuiet rva n e = .ok q) : SameVas p q := by
  unfold Image.expandQuiet at h
  cases hi : p.secIdxFromRva rva with
  | error f => rw [hi] at h; rw [← Except.ok.inj h]; exact SameVas.refl p
  | ok i =>
    rw [hi] at h
    dsimp only at h
    cases he : p.expandSection i rva n e with
    | ok r =>
      rw [he] at h
      rw [← Except.ok.inj h]; exact expandSection_vas he
    | error f =>
      rw [he] at h
      cases f with
      | ub u => simp [ubE] at h
      | exn x => rw [← Except.ok.inj h]; exact expandLeft_vas p i rva n e

theorem writeLoc_vas {p q : Image} {l : Loc} {d : Bytes} (h : p.writeLoc l d = .ok q) (hl : ∃ i o, l = .sec i o) : SameVas p q := by
  obtain ⟨i, o, rfl⟩ := hl
  unfold Image.writeLoc at h
  dsimp only at h
  cases hs : p.secs[i]? with
  | none => rw [hs] at h; simp [ubE] at h
  | some s =>
    rw [hs] at h
    dsimp only at h
    rw [bind_ok_iff] at h
    obtain ⟨b, -, h2⟩ := h
    rw [← Except.ok.inj h2]
    exact ⟨map_va_set hs rfl, rfl⟩

theorem expandSection_hdr (p : Image) (h : Bytes) (i rva n : Nat) (e : ExpandType) :
    SameBut2 h (p.expandSection i rva n e) ((p.withHdr h).expandSection i rva n e) := by
  unfold Image.expandSection
  show SameBut2 h _ (match p.secs[i]? with | none => _ | some s => _)
  cases p.secs[i]? with
  | none => rfl
  | some s =>
    refine SameBut2.ite (fun _ => rfl) fun _ => ?_
    cases e with
    | raw =>
      exact SameBut2.bind' fun _ => SameBut2.ite (fun _ => SameBut2.bind (recalculate_hdr _ h i false) fun _ => rfl) fun _ => rfl
    | virt =>
      exact SameBut2.bind' fun _ => SameBut2.ite (fun _ => SameBut2.bind (setVirtualSize_hdr p h i _) fun _ => rfl) fun _ => rfl

theorem expandLeft_hdr (p : Image) (h : Bytes) (i rva n : Nat) (e : ExpandType) :
    (p.withHdr h).expandLeft i rva n e = (p.expandLeft i rva n e).withHdr h := by
  unfold Image.expandLeft
  show (match p.secs[i]?, e with | some s, .raw => _ | _, _ => _) = _
  cases p.secs[i]? with
  | none => rfl
  | some s =>
    cases e with
    | virt => rfl
    | raw =>
      dsimp only
      have e : (p.withHdr h).dataLenSec s rva .raw = p.dataLenSec s rva .raw := rfl
      rw [e]
      cases p.dataLenSec s rva .raw with
      | error _ => rfl
      | ok len =>
        dsimp only
        show (if i + 1 = p.secs.length ∧ len < n then _ else _) = _
        split <;> rfl

theorem expandQuiet_hdr (p : Image) (h : Bytes) (rva n : Nat) (e : ExpandType) :
    SameBut h (p.expandQuiet rva n e) ((p.withHdr h).expandQuiet rva n e) := by
  unfold Image.expandQuiet
  have e1 : (p.withHdr h).secIdxFromRva rva = p.secIdxFromRva rva := rfl
  rw [e1]
  cases p.secIdxFromRva rva with
  | error f => rfl
  | ok i =>
    dsimp only
    rw [show (p.withHdr h).expandSection i rva n e = _ from expandSection_hdr p h i rva n e]
    cases p.expandSection i rva n e with
    | ok r => rfl
    | error f =>
      cases f with
      | ub u => rfl
      | exn x =>
        show (Except.ok ((p.withHdr h).expandLeft i rva n e) : Res Image) = _
        rw [expandLeft_hdr]
        rfl

/-- `p` has no header bytes, and `h` would fit before its sections. -/
structure Clear (h : Bytes) (p : Image) : Prop where
  none : p.hdrData = []
  below : ∀ s ∈ p.secs, h.length ≤ s.va

theorem Clear.next {h : Bytes} {p q : Image} (c : Clear h p) (g : SameVas p q) : Clear h q := by
  refine ⟨g.hdr.trans c.none, fun s hs => ?_⟩
  have : s.va ∈ q.secs.map Sec.va := List.mem_map_of_mem hs
  rw [g.vas, List.mem_map] at this
  obtain ⟨t, ht, e⟩ := this
  rw [← e]; exact c.below t ht

theorem Clear.same {h : Bytes} {p : Image} (c : Clear h p) : SameSecs p (p.withHdr h) :=
  ⟨rfl, rfl, rfl, rfl, c.none, c.below⟩

theorem Clear.mutPtr {h : Bytes} {p : Image} (c : Clear h p) {rva : Nat} {l : Loc} (hl : p.mutPtrFromRva rva true = .ok l) :
    (p.withHdr h).mutPtrFromRva rva true = .ok l ∧ ∃ i o, l = .sec i o := by
  unfold Image.mutPtrFromRva at hl ⊢
  rw [if_neg (by rw [c.none]; simp), bind_ok_iff] at hl
  obtain ⟨i, h1, h2⟩ := hl
  have h1' := h1
  unfold Image.secIdxFromRva at h1
  cases hf : p.secs.findIdx? (fun s => s.containsRva p.nt.secAlign rva) with
  | none => rw [hf] at h1; simp [throwE] at h1
  | some j =>
    rw [hf] at h1
    have : j = i := Except.ok.inj h1
    subst this
    rw [List.findIdx?_eq_some_iff_getElem] at hf
    obtain ⟨hj, hc, -⟩ := hf
    unfold Sec.containsRva at hc
    rw [Bool.and_eq_true, decide_eq_true_eq] at hc
    have hb := c.below _ (List.getElem_mem hj)
    rw [if_neg (by show ¬ (true = true ∧ rva < h.length); omega)]
    have e1 : (p.withHdr h).secIdxFromRva rva = p.secIdxFromRva rva := rfl
    rw [e1, h1', ok_bind]
    show (match p.secs[j]? with | .none => _ | some s => _) = _ ∧ _
    cases hs : p.secs[j]? with
    | none => rw [hs] at h2; simp [ubE] at h2
    | some s =>
      rw [hs] at h2
      dsimp only at h2 ⊢
      refine ⟨h2, ?_⟩
      split at h2
      · simp [throwE] at h2
      · split at h2
        · simp [ubE] at h2
        · exact ⟨_, _, (Except.ok.inj h2).symm⟩

theorem writeLoc_hdr {p q : Image} {l : Loc} {d : Bytes} (h : Bytes) (hl : ∃ i o, l = .sec i o) (hq : p.writeLoc l d = .ok q) :
    (p.withHdr h).writeLoc l d = .ok (q.withHdr h) := by
  obtain ⟨i, o, rfl⟩ := hl
  have := rawPut_hdr p h i o d
  unfold Image.rawPut SameBut at this
  rw [this, hq]
  rfl

theorem tlsPutData_hdr {h : Bytes} {p q : Image} (c : Clear h p) {t : TlsInfo} {e : ExpandType} (hq : p.tlsPutData t e = .ok q) :
    (p.withHdr h).tlsPutData t e = .ok (q.withHdr h) ∧ SameVas p q := by
  unfold Image.tlsPutData at hq ⊢
  by_cases h0 : t.start ≠ 0 ∧ t.start ≠ t.stop
  · rw [if_pos h0, bind_ok_iff] at hq
    obtain ⟨p1, h1, h2⟩ := hq
    have v1 := expandQuiet_vas h1
    have c1 := c.next v1
    have e1 : (p.withHdr h).expandQuiet t.start (t.stop - t.start) e = .ok (p1.withHdr h) := by
      rw [show (p.withHdr h).expandQuiet t.start (t.stop - t.start) e = _ from expandQuiet_hdr p h _ _ e, h1]; rfl
    rw [if_pos h0, e1, ok_bind]
    rw [bind_ok_iff] at h2
    obtain ⟨size, h3, h4⟩ := h2
    have e2 : (p1.withHdr h).tlsRoom t.start (t.stop - t.start) = .ok size := by
      refine (OkLe.bind (c1.same.dataLenFrom _ _ _ _) fun a => ?_ : OkLe (p1.tlsRoom _ _) ((p1.withHdr h).tlsRoom _ _)) size h3
      exact OkLe.ite (fun _ => OkLe.bind (c1.same.dataLenFrom _ _ _ _) fun _ => OkLe.refl _) fun _ => OkLe.refl _
    rw [e2, ok_bind]
    by_cases hz : size = 0
    · rw [if_pos hz] at h4 ⊢
      rw [← Except.ok.inj h4]
      exact ⟨rfl, v1⟩
    · rw [if_neg hz, bind_ok_iff] at h4
      obtain ⟨l, h5, h6⟩ := h4
      rw [bind_ok_iff] at h6
      obtain ⟨b, h7, h8⟩ := h6
      obtain ⟨g1, g2⟩ := c1.mutPtr h5
      rw [if_neg hz, g1, ok_bind, h7, ok_bind]
      exact ⟨writeLoc_hdr h g2 h8, v1.trans (writeLoc_vas h8 g2)⟩
  · rw [if_neg h0] at hq ⊢
    rw [← Except.ok.inj hq]
    exact ⟨rfl, SameVas.refl p⟩

theorem tlsVas_hdr (p : Image) (h : Bytes) (l : List Nat) : (p.withHdr h).tlsVas l = p.tlsVas l := by
  induction l with
  | nil => rfl
  | cons r l ih =>
    unfold Image.tlsVas
    rw [ih]
    rfl

theorem tlsPutCallbacks_hdr {h : Bytes} {p q : Image} (c : Clear h p) {t : TlsInfo} (hq : p.tlsPutCallbacks t = .ok q) :
    (p.withHdr h).tlsPutCallbacks t = .ok (q.withHdr h) ∧ SameVas p q := by
  unfold Image.tlsPutCallbacks at hq ⊢
  by_cases h0 : t.callbacksRva ≠ 0
  · rw [if_pos h0] at hq ⊢
    dsimp only at hq ⊢
    rw [bind_ok_iff] at hq
    obtain ⟨p1, h1, h2⟩ := hq
    have v1 := expandQuiet_vas h1
    have c1 := c.next v1
    have e1 : (p.withHdr h).expandQuiet t.callbacksRva (w32 ((t.callbacks.length + 1) * (p.withHdr h).kind.ptr)) .raw = .ok (p1.withHdr h) := by
      rw [show (p.withHdr h).expandQuiet t.callbacksRva (w32 ((t.callbacks.length + 1) * (p.withHdr h).kind.ptr)) .raw = _ from
        expandQuiet_hdr p h _ _ .raw]
      show Except.map _ (p.expandQuiet t.callbacksRva (w32 ((t.callbacks.length + 1) * p.kind.ptr)) .raw) = _
      rw [h1]; rfl
    rw [e1, ok_bind]
    rw [bind_ok_iff] at h2
    obtain ⟨a, h3, h4⟩ := h2
    rw [c1.same.dataLenFrom _ _ _ _ a h3, ok_bind]
    rw [bind_ok_iff] at h4
    obtain ⟨u, h5, h6⟩ := h4
    have h5' : throwIf (a < sub64 (w32 ((t.callbacks.length + 1) * (p.withHdr h).kind.ptr)) (p1.withHdr h).kind.ptr) .insufficientSpace = .ok u := h5
    rw [h5', ok_bind]
    rw [bind_ok_iff] at h6
    obtain ⟨v, h7, h8⟩ := h6
    rw [c1.same.dataLenFrom _ _ _ _ v h7, ok_bind]
    rw [bind_ok_iff] at h8
    obtain ⟨u2, h9, h10⟩ := h8
    have h9' : throwIf (v < w32 ((t.callbacks.length + 1) * (p.withHdr h).kind.ptr)) .insufficientSpace = .ok u2 := h9
    rw [h9', ok_bind, tlsVas_hdr]
    rw [bind_ok_iff] at h10
    obtain ⟨vas, h11, h12⟩ := h10
    rw [h11, ok_bind]
    rw [bind_ok_iff] at h12
    obtain ⟨l, h13, h14⟩ := h12
    obtain ⟨g1, g2⟩ := c1.mutPtr h13
    rw [g1, ok_bind]
    exact ⟨writeLoc_hdr h g2 h14, v1.trans (writeLoc_vas h14 g2)⟩
  · rw [if_neg h0] at hq ⊢
    rw [← Except.ok.inj hq]
    exact ⟨rfl, SameVas.refl p⟩

theorem rebuildTls_hdr {h : Bytes} {p q : Image} {dir : Nat × Nat} (c : Clear h p) {t : TlsInfo} {i off : Nat} {e : ExpandType}
    {strip : Bool} (hq : p.rebuildTls t i off true true e true strip = .ok (q, dir)) :
    (p.withHdr h).rebuildTls t i off true true e true strip = .ok (q.withHdr h, dir) := by
  unfold Image.rebuildTls at hq ⊢
  show (match p.secs[i]? with | none => _ | some s => _) = _
  cases hs : p.secs[i]? with
  | none => rw [hs] at hq; simp [throwE] at hq
  | some s =>
    rw [hs] at hq
    dsimp only at hq ⊢
    rw [bind_ok_iff] at hq
    obtain ⟨u1, h1, h2⟩ := hq
    have h1' : (p.withHdr h).spaceCheck i s (w32 ((p.withHdr h).kind.sizeofTls + alignUp off (p.withHdr h).kind.ptr)) = .ok u1 := h1
    rw [h1', ok_bind]
    rw [bind_ok_iff] at h2
    obtain ⟨u2, h3, h4⟩ := h2
    rw [h3, ok_bind]
    rw [bind_ok_iff] at h4
    obtain ⟨b, h5, h6⟩ := h4
    have h5' : (p.withHdr h).tlsStruct t = .ok b := h5
    rw [h5', ok_bind]
    rw [bind_ok_iff] at h6
    obtain ⟨d, h7, h8⟩ := h6
    have h7' : writeAt (growTo s.data (w32 ((p.withHdr h).kind.sizeofTls + alignUp off (p.withHdr h).kind.ptr)))
        (alignUp off (p.withHdr h).kind.ptr) b = .ok d := h7
    rw [h7', ok_bind]
    rw [bind_ok_iff] at h8
    obtain ⟨q1, h9, h10⟩ := h8
    rw [bind_ok_iff] at h10
    obtain ⟨q2, h11, h12⟩ := h10
    have v0 : SameVas p { p with secs := p.secs.set i { s with data := d } } := ⟨map_va_set hs rfl, rfl⟩
    have c0 := c.next v0
    obtain ⟨g1, v1⟩ := tlsPutData_hdr c0 h9
    have g1' : Image.tlsPutDataIf { p.withHdr h with secs := (p.withHdr h).secs.set i { s with data := d } } true t e = .ok (q1.withHdr h) := g1
    rw [g1', ok_bind]
    obtain ⟨g2, v2⟩ := tlsPutCallbacks_hdr (c0.next v1) h11
    have g2' : (q1.withHdr h).tlsPutCallbacksIf true t = .ok (q2.withHdr h) := g2
    rw [g2', ok_bind]
    unfold Image.tlsFinish at h12 ⊢
    show (match q2.secs[i]? with | none => _ | some s => _) = _
    cases hs2 : q2.secs[i]? with
    | none => rw [hs2] at h12; simp [ubE] at h12
    | some s2 =>
      rw [hs2] at h12
      dsimp only at h12 ⊢
      have := finishDir_hdr q2 h i s2 s2.data strip true dirTls (w32 (s2.va + alignUp off p.kind.ptr), q2.kind.sizeofTls)
      unfold SameBut2 at this
      refine Eq.trans this ?_
      rw [h12]
      rfl

end PE
