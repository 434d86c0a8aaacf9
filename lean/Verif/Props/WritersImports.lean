/-
C94: memory safety of the functions that write through addresses: imports and TLS.
-/
import Verif.Props.Writers
import Verif.Lemmas.FailingSimple
import Verif.Lemmas.FailingDirs
import Verif.Lemmas.FailingMore
import Verif.Lemmas.History

namespace PE

/-- No undefined behaviour, and `Q` holds for what is returned. -/
def SafeTo {α : Type} (x : Res α) (Q : α → Prop) : Prop := NoUB x ∧ ∀ a, x = .ok a → Q a

theorem SafeTo.ok {α : Type} {Q : α → Prop} {a : α} (h : Q a) : SafeTo (.ok a) Q := ⟨NoUB.ok _, fun _ e => Except.ok.inj e ▸ h⟩
theorem SafeTo.throwE {α : Type} {Q : α → Prop} (e : Err) : SafeTo (throwE e : Res α) Q := ⟨NoUB.throwE _, fun _ h => by cases h⟩
theorem SafeTo.bind {α β : Type} {x : Res α} {f : α → Res β} {Q : α → Prop} {R : β → Prop} (hx : SafeTo x Q)
    (hf : ∀ a, Q a → SafeTo (f a) R) : SafeTo (x >>= f) R := by
  cases x with
  | error e => exact ⟨fun u h => hx.1 u (by cases h; rfl), fun _ h => by cases h⟩
  | ok a => exact hf a (hx.2 a rfl)
theorem SafeTo.imp {α : Type} {x : Res α} {Q R : α → Prop} (hx : SafeTo x Q) (h : ∀ a, Q a → R a) : SafeTo x R :=
  ⟨hx.1, fun a e => h a (hx.2 a e)⟩

theorem OnlyBytes.shape {p q : Image} (h : OnlyBytes p q) {i : Nat} {s : Sec} (hs : p.secs[i]? = some s) :
    ∃ t, q.secs[i]? = some t ∧ t.shape = s.shape := by
  obtain ⟨ss, hh, rfl, -, hm⟩ := h
  have : (ss.map Sec.shape)[i]? = some s.shape := by rw [hm, List.getElem?_map, hs]; rfl
  rw [List.getElem?_map] at this
  obtain ⟨t, ht, e⟩ := Option.map_eq_some_iff.mp this
  exact ⟨t, ht, e⟩

theorem OnlyBytes.kind {p q : Image} (h : OnlyBytes p q) : q.kind = p.kind := by obtain ⟨_, _, rfl, -, -⟩ := h; rfl
theorem OnlyBytes.nt {p q : Image} (h : OnlyBytes p q) : q.nt = p.nt := by obtain ⟨_, _, rfl, -, -⟩ := h; rfl

/-- The pointer to an address with more than `x` bytes behind it takes a write of `x`. -/
theorem mutPtr_room {p : Image} {rva n : Nat} (hn : p.dataLenFrom rva rva .raw true = .ok n) (h0 : 0 < n) {x : Nat} (hx : x ≤ n) :
    SafeTo (p.mutPtrFromRva rva true) fun l => ∀ b : Bytes, b.length = x → ∃ q, p.writeLoc l b = .ok q := by
  unfold Image.dataLenFrom at hn
  unfold Image.mutPtrFromRva
  by_cases hh : rva < p.hdrData.length
  · rw [if_pos ⟨rfl, hh, hh⟩] at hn
    have hle := Nat.mod_le (p.hdrData.length - rva) 4294967296
    have : n ≤ p.hdrData.length - rva := by rw [← Except.ok.inj hn]; exact hle
    rw [if_pos ⟨rfl, hh⟩]
    refine SafeTo.ok fun b hb => ?_
    obtain ⟨d, e, -⟩ := writeAt_fit (d := p.hdrData) (o := rva) (x := b) (by omega)
    exact ⟨_, by unfold Image.writeLoc; dsimp only; rw [e]; rfl⟩
  · rw [if_neg (by rintro ⟨_, h, _⟩; exact hh h)] at hn
    rw [if_neg (by rintro ⟨_, h⟩; exact hh h)]
    obtain ⟨s, hs, hn⟩ := bind_ok_iff.mp hn
    split at hn
    · cases hn
    · next hva =>
      have hle := Nat.mod_le (s.viewLen .raw p.nt.secAlign + s.va - rva) 4294967296
      have hn' : n ≤ s.data.length + s.va - rva := by rw [← Except.ok.inj hn]; exact hle
      unfold Image.sectionFromRva at hs
      split at hs
      · next s' hf =>
        cases hs
        unfold Image.secIdxFromRva
        cases hi : p.secs.findIdx? (fun s => s.containsRva p.nt.secAlign rva) with
        | none =>
          rw [List.findIdx?_eq_none_iff] at hi
          have := List.find?_some hf
          rw [hi _ (List.mem_of_find?_eq_some hf)] at this
          cases this
        | some j =>
          dsimp only
          rw [ok_bind]
          have hj : p.secs[j]? = some s := by
            rw [List.findIdx?_eq_some_iff_getElem] at hi
            obtain ⟨hjl, hj1, hj2⟩ := hi
            rw [List.find?_eq_some_iff_getElem] at hf
            obtain ⟨hs1, k, hk, hk1, hk2⟩ := hf
            rcases Nat.lt_trichotomy j k with h | h | h
            · have := hk2 j h; rw [hj1] at this; cases this
            · subst h; rw [List.getElem?_eq_getElem hk, hk1]
            · have := hj2 k h; rw [hk1, hs1] at this; exact absurd rfl this
          rw [hj]
          dsimp only
          rw [if_neg (by intro e; rw [e, List.length_nil] at hn'; omega), if_neg (by omega)]
          refine SafeTo.ok fun b hb => ?_
          obtain ⟨d, e, -⟩ := writeAt_fit (d := s.data) (o := rva - s.va) (x := b) (by omega)
          refine ⟨{ p with secs := p.secs.set j { s with data := d } }, ?_⟩
          unfold Image.writeLoc
          dsimp only
          rw [hj]
          dsimp only
          rw [e]
          rfl
      · cases hs

theorem dataLenFrom_safe (p : Image) (a b : Nat) (t : DataType) (h : Bool) : NoUB (p.dataLenFrom a b t h) := by
  unfold Image.dataLenFrom Image.sectionFromRva
  split
  · exact NoUB.ok _
  · split
    · rw [ok_bind]
      split
      · exact NoUB.throwE _
      · exact NoUB.ok _
    · exact NoUB.throwE _

theorem savedPut_fit (p : Image) (rva v : Nat) : SafeTo (p.savedPut rva v) fun q => OnlyBytes p q := by
  unfold Image.savedPut
  have hd := dataLenFrom_safe p rva rva .raw true
  cases e : p.dataLenFrom rva rva .raw true with
  | error f => rw [e] at hd; exact ⟨fun u h => hd u (by cases h; rfl), fun _ h => by cases h⟩
  | ok n =>
    rw [ok_bind]
    unfold throwIf
    split
    · exact SafeTo.throwE _
    · next hn =>
      rw [ok_bind]
      refine SafeTo.bind (mutPtr_room e (x := p.kind.ptr) (by omega) (by omega)) fun l hl => ?_
      obtain ⟨q, hq⟩ := hl (leBytes p.kind.ptr v) (leBytes_length _ _)
      rw [hq]
      exact SafeTo.ok (writeLoc_onlyBytes hq)

/-- The section with position `i` has at least `E` bytes. -/
structure Ready (k : Kind) (i E : Nat) (q : Image) : Prop where
  kind : q.kind = k
  dirs : q.nt.dirs.length = 16
  room : ∃ s, q.secs[i]? = some s ∧ E ≤ s.data.length

theorem Ready.bytes {k : Kind} {i E : Nat} {p q : Image} (h : Ready k i E p) (g : OnlyBytes p q) : Ready k i E q := by
  obtain ⟨s, hs, hl⟩ := h.room
  obtain ⟨t, ht, e⟩ := g.shape hs
  refine ⟨g.kind.trans h.kind, by rw [g.nt]; exact h.dirs, t, ht, ?_⟩
  have : t.data.length = s.data.length := congrArg Prod.snd e
  omega

theorem rawPut_fit {k : Kind} {i E : Nat} {p : Image} (h : Ready k i E p) {pos : Nat} {x : Bytes} (hx : pos + x.length ≤ E) :
    SafeTo (p.rawPut i pos x) fun q => Ready k i E q := by
  obtain ⟨s, hs, hl⟩ := h.room
  obtain ⟨d, e, l⟩ := writeAt_fit (d := s.data) (o := pos) (x := x) (by omega)
  have hq : p.rawPut i pos x = .ok { p with secs := p.secs.set i { s with data := d } } := by
    unfold Image.rawPut Image.writeLoc
    dsimp only
    rw [hs]
    dsimp only
    rw [e]
    rfl
  have hb : OnlyBytes p { p with secs := p.secs.set i { s with data := d } } := writeLoc_onlyBytes hq
  rw [hq]
  exact SafeTo.ok (h.bytes hb)

/-- The positions did not move farther than this. -/
structure Moved (a b : ImportSt) (str iat orig : Nat) : Prop where
  str : b.str = a.str + str
  iat : b.iat ≤ a.iat + iat
  orig : b.orig ≤ a.orig + orig

theorem Moved.trans {a b c : ImportSt} {s t o s' t' o' : Nat} (h : Moved a b s t o) (g : Moved b c s' t' o') :
    Moved a c (s + s') (t + t') (o + o') := by
  have := h.str; have := h.iat; have := h.orig; have := g.str; have := g.iat; have := g.orig
  exact ⟨by omega, by omega, by omega⟩

section
variable {k : Kind} {i E : Nat} (hE : E < 4294967296)
include hE

theorem putIat_fit {st : ImportSt} (h : Ready k i E st.img) (pl : ImportPlan) (adv : Bool) (v : Nat) (hi : st.iat + k.ptr ≤ E) :
    SafeTo (st.putIat i pl adv v) fun b => Ready k i E b.img ∧ Moved st b 0 k.ptr 0 := by
  unfold ImportSt.putIat
  split
  · refine SafeTo.bind (savedPut_fit _ _ _) fun q hq => SafeTo.ok ⟨h.bytes hq, rfl, by simp, by simp⟩
  · refine SafeTo.bind (rawPut_fit h (by rw [leBytes_length, h.kind]; omega)) fun q hq => SafeTo.ok ⟨hq, rfl, ?_, by simp⟩
    dsimp only
    rw [h.kind, w32, Nat.mod_eq_of_lt (by omega)]
    split <;> omega

theorem putOrig_fit {st : ImportSt} (h : Ready k i E st.img) (pl : ImportPlan) (v : Nat) (ho : st.orig + k.ptr ≤ E) :
    SafeTo (st.putOrig i pl v) fun b => Ready k i E b.img ∧ Moved st b 0 0 k.ptr := by
  unfold ImportSt.putOrig
  split
  · refine SafeTo.bind (savedPut_fit _ _ _) fun q hq => SafeTo.ok ⟨h.bytes hq, rfl, by simp, by simp⟩
  · refine SafeTo.bind (rawPut_fit h (by rw [leBytes_length, h.kind]; omega)) fun q hq => SafeTo.ok ⟨hq, rfl, by simp, ?_⟩
    dsimp only
    rw [h.kind, w32, Nat.mod_eq_of_lt (by omega)]
    omega

theorem fnIat_fit {st : ImportSt} (h : Ready k i E st.img) (pl : ImportPlan) (f : ImportFn) (v : Nat) (hi : st.iat + k.ptr ≤ E) :
    SafeTo (st.fnIat i pl f v) fun b => Ready k i E b.img ∧ Moved st b 0 k.ptr 0 := by
  unfold ImportSt.fnIat
  split
  · exact SafeTo.ok ⟨h, rfl, by omega, by omega⟩
  · split <;> exact putIat_fit hE h _ _ _ hi

theorem fnOrig_fit {st : ImportSt} (h : Ready k i E st.img) (pl : ImportPlan) (v : Nat) (ho : pl.writeOrig = true → st.orig + k.ptr ≤ E) :
    SafeTo (st.fnOrig i pl v) fun b => Ready k i E b.img ∧ Moved st b 0 0 (if pl.writeOrig then k.ptr else 0) := by
  unfold ImportSt.fnOrig
  split
  · next hw => exact putOrig_fit hE h _ _ (ho hw)
  · exact SafeTo.ok ⟨h, rfl, by omega, by omega⟩

/-- The bytes of the name of a function with its hint. -/
def ImportFn.text (f : ImportFn) : Nat := if f.name ≠ [] then f.name.length + 1 + 2 else 0

theorem putFn_fit {st : ImportSt} (h : Ready k i E st.img) (pl : ImportPlan) (va : Nat) (f : ImportFn) (hi : st.iat + k.ptr ≤ E)
    (ho : pl.writeOrig = true → st.orig + k.ptr ≤ E) (hs : st.str + f.text ≤ E) :
    SafeTo (st.putFn i va pl f) fun b => Ready k i E b.img ∧ Moved st b f.text k.ptr (if pl.writeOrig then k.ptr else 0) := by
  unfold ImportSt.putFn
  refine SafeTo.bind (fnIat_fit hE h pl f _ hi) fun b hb => ?_
  obtain ⟨hb, mb⟩ := hb
  have m1 := mb.str; have m2 := mb.iat; have m3 := mb.orig
  refine SafeTo.bind (fnOrig_fit hE hb pl _ (fun hw => by have := ho hw; omega)) fun c hc => ?_
  obtain ⟨hc, mc⟩ := hc
  have n1 := mc.str; have n2 := mc.iat; have n3 := mc.orig
  have m := mb.trans mc
  unfold ImportFn.text at hs ⊢
  split
  · next hn =>
    rw [if_pos hn] at hs
    have w1 : w32 (c.str + 2) = c.str + 2 := Nat.mod_eq_of_lt (by omega)
    have w2 : w32 (c.str + (f.name.length + 1 + 2)) = c.str + (f.name.length + 1 + 2) := Nat.mod_eq_of_lt (by omega)
    rw [w1, w2]
    refine SafeTo.bind (rawPut_fit hc (by rw [leBytes_length]; omega)) fun q hq => ?_
    refine SafeTo.bind (rawPut_fit hq (by simp only [List.length_append, List.length_singleton]; omega)) fun q' hq' => SafeTo.ok ?_
    exact ⟨hq', by show c.str + _ = _; omega, by show c.iat ≤ _; omega, by show c.orig ≤ _; omega⟩
  · next hn =>
    exact SafeTo.ok ⟨hc, by omega, by omega, by omega⟩

theorem putFns_fit (pl : ImportPlan) (va : Nat) (fs : List ImportFn) {st : ImportSt} (h : Ready k i E st.img) (hi : st.iat + k.ptr * fs.length ≤ E)
    (ho : pl.writeOrig = true → st.orig + k.ptr * fs.length ≤ E) (hs : st.str + (fs.map ImportFn.text).sum ≤ E) :
    SafeTo (st.putFns i va pl fs) fun b => Ready k i E b.img ∧
      Moved st b (fs.map ImportFn.text).sum (k.ptr * fs.length) (if pl.writeOrig then k.ptr * fs.length else 0) := by
  induction fs generalizing st with
  | nil => exact SafeTo.ok ⟨h, rfl, by simp, by simp⟩
  | cons f fs ih =>
    simp only [List.map_cons, List.sum_cons, List.length_cons, Nat.mul_succ] at *
    unfold ImportSt.putFns
    refine SafeTo.bind (putFn_fit hE h pl va f (by omega) (fun hw => by have := ho hw; omega) (by omega)) fun b hb => ?_
    obtain ⟨hb, mb⟩ := hb
    have m1 := mb.str; have m2 := mb.iat; have m3 := mb.orig
    refine (ih hb (by omega) (fun hw => by have := ho hw; rw [if_pos hw] at m3; omega) (by omega)).imp fun c hc => ⟨hc.1, ?_⟩
    have n1 := hc.2.str; have n2 := hc.2.iat; have n3 := hc.2.orig
    refine ⟨by omega, by omega, ?_⟩
    split at n3 <;> rename_i hw
    · rw [if_pos hw] at m3 ⊢; omega
    · rw [if_neg hw] at m3 ⊢; omega

theorem putLib_fit (c : ImportCfg) (va desc : Nat) (l : ImportLib) {st : ImportSt} (h : Ready k i E st.img) (hd : desc + 20 ≤ E)
    (hi : st.iat + k.ptr * (l.funcs.length + 1) ≤ E) (ho : (c.buildOrig || c.fill) = true → st.orig + k.ptr * (l.funcs.length + 1) ≤ E)
    (hs : st.str + (l.name.length + 1 + (l.funcs.map ImportFn.text).sum) ≤ E) :
    SafeTo (st.putLib c i va desc l) fun b => Ready k i E b.img ∧
      Moved st b (l.name.length + 1 + (l.funcs.map ImportFn.text).sum) (k.ptr * (l.funcs.length + 1))
        (if c.buildOrig || c.fill then k.ptr * (l.funcs.length + 1) else 0) := by
  unfold ImportSt.putLib
  generalize hpl : importPlan c va st.iat st.orig l = pl
  have hw : pl.writeOrig = true → (c.buildOrig || c.fill) = true := by
    subst hpl
    unfold importPlan
    dsimp only
    intro hw
    cases hb : c.buildOrig <;> cases hf : c.fill <;> simp only [hb, hf] at hw <;> first | rfl | skip
    split at hw <;> simp at hw
  dsimp only
  rw [Nat.mul_succ] at hi ho
  refine SafeTo.bind (rawPut_fit h (by
    unfold importDescr
    rw [encFields_length]; simp only [List.map_cons, List.map_nil, List.sum_cons, List.sum_nil]; omega)) fun q hq => ?_
  refine SafeTo.bind (rawPut_fit hq (by simp only [List.length_append, List.length_singleton]; omega)) fun q hq => ?_
  have w1 : w32 (st.str + (l.name.length + 1)) = st.str + (l.name.length + 1) := Nat.mod_eq_of_lt (by omega)
  rw [w1]
  have ho' : pl.writeOrig = true → st.orig + (k.ptr * l.funcs.length + k.ptr) ≤ E := fun x => ho (hw x)
  refine SafeTo.bind (putFns_fit hE pl va l.funcs (st := { st with img := q, str := st.str + (l.name.length + 1), ft := pl.ft, oft := pl.oft })
    hq (by show st.iat + _ ≤ E; omega) (fun x => by have := ho' x; show st.orig + _ ≤ E; omega) (by show st.str + _ + _ ≤ E; omega)) fun b hb => ?_
  obtain ⟨hb, mb⟩ := hb
  have m1 : b.str = st.str + (l.name.length + 1) + (l.funcs.map ImportFn.text).sum := mb.str
  have m2 : b.iat ≤ st.iat + k.ptr * l.funcs.length := mb.iat
  have m3 : b.orig ≤ st.orig + (if pl.writeOrig then k.ptr * l.funcs.length else 0) := mb.orig
  have hend : SafeTo (b.endIat i pl) fun b' => Ready k i E b'.img ∧ Moved b b' 0 k.ptr 0 := by
    unfold ImportSt.endIat
    split
    · exact SafeTo.ok ⟨hb, rfl, by omega, by omega⟩
    · exact putIat_fit hE hb _ _ _ (by omega)
  refine SafeTo.bind hend fun b' hb' => ?_
  obtain ⟨hb', mb'⟩ := hb'
  have n1 := mb'.str; have n2 := mb'.iat; have n3 := mb'.orig
  refine (fnOrig_fit hE hb' pl 0 (fun x => by have := ho' x; rw [if_pos x] at m3; omega)).imp fun d hd => ⟨hd.1, ?_⟩
  have k1 := hd.2.str; have k2 := hd.2.iat; have k3 := hd.2.orig
  rw [Nat.mul_succ]
  refine ⟨by omega, by omega, ?_⟩
  by_cases x : pl.writeOrig = true
  · rw [if_pos x] at m3 k3; rw [if_pos (hw x)]; omega
  · rw [if_neg x] at m3 k3; omega

theorem putLibs_fit (c : ImportCfg) (va : Nat) (ls : List ImportLib) (desc : Nat) {st : ImportSt} (h : Ready k i E st.img)
    (hd : desc + 20 * (ls.length + 1) ≤ E) (hi : st.iat + importIatSize k.ptr ls ≤ E)
    (ho : (c.buildOrig || c.fill) = true → st.orig + importIatSize k.ptr ls ≤ E) (hs : st.str + importStrings ls ≤ E) :
    SafeTo (st.putLibs c i va desc ls) fun b => Ready k i E b.img := by
  induction ls generalizing st desc with
  | nil =>
    unfold ImportSt.putLibs
    refine SafeTo.bind (rawPut_fit h (by rw [zeros_length]; simpa using hd)) fun q hq => SafeTo.ok hq
  | cons l ls ih =>
    simp only [importIatSize, importStrings, List.map_cons, List.sum_cons, List.length_cons] at *
    have e1 : k.ptr * (1 + l.funcs.length) = k.ptr * (l.funcs.length + 1) := by rw [Nat.add_comm]
    rw [e1] at hi ho
    have e2 : (l.funcs.map fun f => if f.name ≠ [] then f.name.length + 1 + 2 else 0).sum = (l.funcs.map ImportFn.text).sum := rfl
    rw [e2] at hs
    unfold ImportSt.putLibs
    refine SafeTo.bind (putLib_fit hE c va desc l h (by omega) (by omega) (fun x => by have := ho x; omega) (by omega)) fun b hb => ?_
    obtain ⟨hb, mb⟩ := hb
    have m1 := mb.str; have m2 := mb.iat; have m3 := mb.orig
    have w1 : w32 (desc + 20) = desc + 20 := Nat.mod_eq_of_lt (by omega)
    rw [w1]
    exact ih (desc + 20) hb (by omega) (by omega) (fun x => by have := ho x; rw [if_pos x] at m3; omega) (by omega)

end

theorem slots_stable : Stable fun q => q.nt.dirs.length = 16 where
  secs _ _ _ hp := hp
  hdr _ _ _ hp := hp
  nt _ _ h hp := h.same.slots.trans hp
  stub _ _ hp := hp
  count _ hp := hp
  add _ _ _ hp := hp

theorem importSpace_eq (k : Kind) (ls : List ImportLib) : importSpace k ls = 20 * (ls.length + 1) + k.ptr + importStrings ls + 2 * importIatSize k.ptr ls := by
  unfold importSpace importStrings importIatSize
  have : ∀ fs : List ImportFn, (fs.map fun f => if f.name = [] then 0 else f.name.length + 3).sum =
      (fs.map fun f => if f.name ≠ [] then f.name.length + 1 + 2 else 0).sum := by
    intro fs
    congr 1
    apply List.map_congr_left
    intro f _
    by_cases h : f.name = [] <;> simp [h]
  simp only [this]
  have : ∀ n, k.ptr * (n + 1) = k.ptr * (1 + n) := fun n => by rw [Nat.add_comm]
  simp only [this]
  induction ls with
  | nil => rfl
  | cons l ls ih => simp only [List.map_cons, List.sum_cons, List.length_cons] at ih ⊢; omega

/-- C94: writing imports, whatever the settings, the names and the addresses of the tables to be kept are. -/
theorem C94_imports (p : Image) (hd : p.nt.dirs.length = 16) (ls : List ImportLib) (i : Nat) (c : ImportCfg) (off : Nat)
    (save zeroIat strip : Bool) (h : off + importSpace p.kind ls < 4294967296) (u : UB) :
    p.rebuildImports ls i c off save zeroIat strip ≠ ubE u := by
  refine (show NoUB (p.rebuildImports ls i c off save zeroIat strip) from ?_) u
  rw [importSpace_eq] at h
  have hp := p.kind.ptr_pow2
  have hp0 := hp.pos
  unfold Image.rebuildImports
  split
  · exact NoUB.throwE _
  · next s hs =>
    have w1 : w32 (importStrings ls) = importStrings ls := Nat.mod_eq_of_lt (by omega)
    have w2 : w32 (importIatSize p.kind.ptr ls) = importIatSize p.kind.ptr ls := Nat.mod_eq_of_lt (by omega)
    obtain ⟨a1, a2, -⟩ := alignUp_bounds (off := importStrings ls + off + (1 + ls.length) * 20) hp (by omega)
    have w3 : w32 (importStrings ls + off + (1 + ls.length) * 20) = importStrings ls + off + (1 + ls.length) * 20 := Nat.mod_eq_of_lt (by omega)
    have w4 : w32 (importStrings ls + off) = importStrings ls + off := Nat.mod_eq_of_lt (by omega)
    simp only [w1, w2, w3, w4]
    generalize alignUp (importStrings ls + off + (1 + ls.length) * 20) p.kind.ptr = iat at *
    have w5 : w32 (iat + importIatSize p.kind.ptr ls) = iat + importIatSize p.kind.ptr ls := Nat.mod_eq_of_lt (by omega)
    rw [w5]
    obtain ⟨E, hE, hn, hE1⟩ : ∃ E, w32 (w32 ((1 + ls.length) * 20 + (if (c.buildOrig || c.fill) = true then importIatSize p.kind.ptr ls * 2
        else importIatSize p.kind.ptr ls) + p.kind.ptr + importStrings ls) + off) = E ∧ E < 4294967296 ∧
        E = (1 + ls.length) * 20 + (if (c.buildOrig || c.fill) = true then importIatSize p.kind.ptr ls * 2
          else importIatSize p.kind.ptr ls) + p.kind.ptr + importStrings ls + off := by
      refine ⟨_, rfl, Nat.mod_lt _ (by decide), ?_⟩
      split <;> (unfold w32; omega)
    rw [hE]
    refine NoUB.bind (NoUB.throwIf _ _) fun _ _ => ?_
    have hil := (List.getElem?_eq_some_iff.mp hs).1
    have hg := growTo_max s.data E
    have hready : Ready p.kind i E { p with secs := p.secs.set i { s with data := growTo s.data E } } :=
      ⟨rfl, hd, _, List.getElem?_set_self hil, by show E ≤ (growTo s.data E).length; omega⟩
    have hl := putLibs_fit hn (k := p.kind) (i := i) c s.va ls (importStrings ls + off)
      (st := { img := { p with secs := p.secs.set i { s with data := growTo s.data E } }, str := off, iat := iat,
               orig := iat + importIatSize p.kind.ptr ls }) hready
      (by split at hE1 <;> omega) (by show iat + _ ≤ E; split at hE1 <;> omega)
      (fun x => by rw [if_pos x] at hE1; show iat + _ + _ ≤ E; omega) (by show off + _ ≤ E; split at hE1 <;> omega)
    refine NoUB.bind hl.1 fun b hb => ?_
    have hr := hl.2 b hb
    obtain ⟨s', hs', -⟩ := hr.room
    rw [hs']
    dsimp only
    have hil' := (List.getElem?_eq_some_iff.mp hs').1
    refine NoUB.bind (finishDir_noUB hil' hr.dirs (by decide)) fun r hq => ?_
    obtain ⟨q, dir⟩ := r
    dsimp only
    split
    · have hslots : q.nt.dirs.length = 16 := by
        rw [← finishDirM_result hs'] at hq
        have := inv_finishDir slots_stable i strip save dirImport (dir := (w32 (s.va + w32 (off + importStrings ls)),
          sub32 (w32 ((1 + ls.length) * 20 + (if (c.buildOrig || c.fill) = true then importIatSize p.kind.ptr ls * 2
            else importIatSize p.kind.ptr ls) + p.kind.ptr + importStrings ls)) (importStrings ls))) (Nat.mod_lt _ (by decide)) _
          (show ({ b.img with secs := b.img.secs.set i { s' with data := resize s'.data b.orig } } : Image).nt.dirs.length = 16 from hr.dirs)
        rw [result_ok_iff.mp hq] at this
        exact this
      refine NoUB.bind (dirSet_slots hslots (by decide)).1 fun n hn => ?_
      exact NoUB.bind (dirSet_slots ((dirSet_slots hslots (by decide)).2.2 n hn) (by decide)).2.1 fun _ _ => NoUB.ok _
    · exact NoUB.ok _

end PE
