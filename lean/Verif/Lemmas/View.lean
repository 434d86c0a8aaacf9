/-
Transfer of readings between images whose sections look the same in memory: same addresses, same aligned virtual sizes, same
virtual view. Raw data may differ by null bytes at the end.
-/
import Verif.Lemmas.Mono
import Verif.Model.Debug
import Verif.Model.DotNet
import Verif.Props.Survive
namespace PE

/-- The same value, the same exception, or undefined both. -/
def SameRes {α : Type} (x y : Res α) : Prop := x = y

theorem SameRes.refl {α : Type} (x : Res α) : SameRes x x := rfl

theorem SameRes.bind {α β : Type} {x y : Res α} {f g : α → Res β} (h : SameRes x y) (hf : ∀ v, SameRes (f v) (g v)) :
    SameRes (x >>= f) (y >>= g) := by
  have e : f = g := funext hf
  unfold SameRes at h ⊢
  rw [h, e]

theorem SameRes.bind' {α β : Type} {x : Res α} {f g : α → Res β} (hf : ∀ v, SameRes (f v) (g v)) :
    SameRes (x >>= f) (x >>= g) := SameRes.bind (SameRes.refl x) hf

theorem SameRes.ite {α : Type} {c : Prop} [Decidable c] {x y x' y' : Res α} (h1 : c → SameRes x x') (h2 : ¬ c → SameRes y y') :
    SameRes (if c then x else y) (if c then x' else y') := by
  by_cases h : c
  · rw [if_pos h, if_pos h]; exact h1 h
  · rw [if_neg h, if_neg h]; exact h2 h

theorem SameRes.dite {α : Type} {c : Prop} [Decidable c] {x x' : c → Res α} {y y' : ¬ c → Res α}
    (h1 : ∀ h, SameRes (x h) (x' h)) (h2 : ∀ h, SameRes (y h) (y' h)) :
    SameRes (if h : c then x h else y h) (if h : c then x' h else y' h) := by
  by_cases h : c
  · rw [dif_pos h, dif_pos h]; exact h1 h
  · rw [dif_neg h, dif_neg h]; exact h2 h

/-- What can be seen of a section at its addresses (section alignment `a`). -/
def Sec.seen (a : Nat) (s : Sec) : Nat × Nat × Bytes := (s.va, s.alignedVS a, s.virt a)

/-- The images look the same in memory. -/
structure SameView (p r : Image) : Prop where
  kind : r.kind = p.kind
  base : r.nt.imageBase = p.nt.imageBase
  align : r.nt.secAlign = p.nt.secAlign
  chars : r.nt.chars = p.nt.chars
  num : r.nt.numRva = p.nt.numRva
  dirs : r.nt.dirs = p.nt.dirs
  hdr : r.hdrData = p.hdrData
  secs : r.secs.map (Sec.seen p.nt.secAlign) = p.secs.map (Sec.seen p.nt.secAlign)

theorem find_seen {a rva : Nat} {l m : List Sec} (h : m.map (Sec.seen a) = l.map (Sec.seen a)) :
    (m.find? (fun s => s.containsRva a rva)).map (Sec.seen a) = (l.find? (fun s => s.containsRva a rva)).map (Sec.seen a) := by
  induction l generalizing m with
  | nil => cases m with
    | nil => rfl
    | cons => simp at h
  | cons x l ih =>
    cases m with
    | nil => simp at h
    | cons y m =>
      rw [List.map_cons, List.map_cons] at h
      have h1 := (List.cons.inj h).1
      have h2 := (List.cons.inj h).2
      have hc : y.containsRva a rva = x.containsRva a rva := by
        have e1 : y.va = x.va := congrArg Prod.fst h1
        have e2 : y.alignedVS a = x.alignedVS a := congrArg (fun t => t.2.1) h1
        unfold Sec.containsRva
        rw [e1, e2]
      rw [List.find?_cons, List.find?_cons, hc]
      cases x.containsRva a rva with
      | true => exact congrArg some h1
      | false => exact ih h2

namespace SameView
variable {p r : Image} (h : SameView p r)
include h

/-- The section of an address. -/
theorem section_of (rva : Nat) : (∃ e, p.sectionFromRva rva = .error e ∧ r.sectionFromRva rva = .error e) ∨
    ∃ s t, p.sectionFromRva rva = .ok s ∧ r.sectionFromRva rva = .ok t ∧ t.va = s.va ∧
      t.alignedVS p.nt.secAlign = s.alignedVS p.nt.secAlign ∧ t.virt p.nt.secAlign = s.virt p.nt.secAlign := by
  have hf := find_seen (rva := rva) h.secs
  unfold Image.sectionFromRva
  rw [h.align]
  cases h1 : p.secs.find? (fun s => s.containsRva p.nt.secAlign rva) with
  | none =>
    rw [h1] at hf
    cases h2 : r.secs.find? (fun s => s.containsRva p.nt.secAlign rva) with
    | none => exact .inl ⟨_, rfl, rfl⟩
    | some t => rw [h2] at hf; cases hf
  | some s =>
    rw [h1] at hf
    cases h2 : r.secs.find? (fun s => s.containsRva p.nt.secAlign rva) with
    | none => rw [h2] at hf; cases hf
    | some t =>
      rw [h2] at hf
      have e : t.seen p.nt.secAlign = s.seen p.nt.secAlign := Option.some.inj hf
      exact .inr ⟨s, t, rfl, rfl, congrArg Prod.fst e, congrArg (fun x => x.2.1) e, congrArg (fun x => x.2.2) e⟩

theorem readT (n rva : Nat) (b : Bool) : SameRes (p.readT n rva .virt b) (r.readT n rva .virt b) := by
  unfold Image.readT SameRes
  rw [h.hdr]
  split
  · rfl
  · rcases h.section_of rva with ⟨e, h1, h2⟩ | ⟨s, t, h1, h2, h3, h4, h5⟩
    · rw [h1, h2, error_bind, error_bind]
    · rw [h1, h2, ok_bind, ok_bind, h.align]
      unfold Sec.view
      dsimp only
      rw [h3, h5]

theorem readInt (n rva : Nat) (b : Bool) : SameRes (p.readInt n rva .virt b) (r.readInt n rva .virt b) :=
  SameRes.bind (h.readT n rva b) fun _ => SameRes.refl _

theorem dataLenFrom (rva rva' : Nat) (b : Bool) :
    SameRes (p.dataLenFrom rva rva' .virt b) (r.dataLenFrom rva rva' .virt b) := by
  unfold Image.dataLenFrom SameRes
  rw [h.hdr]
  split
  · rfl
  · rcases h.section_of rva with ⟨e, h1, h2⟩ | ⟨s, t, h1, h2, h3, h4, h5⟩
    · rw [h1, h2, error_bind, error_bind]
    · rw [h1, h2, ok_bind, ok_bind, h.align]
      unfold Sec.viewLen
      dsimp only
      rw [h3, h4]

theorem dataLenTotal (rva : Nat) (b : Bool) : SameRes (p.dataLenTotal rva .virt b) (r.dataLenTotal rva .virt b) := by
  unfold Image.dataLenTotal SameRes
  rw [h.hdr]
  split
  · rfl
  · rcases h.section_of rva with ⟨e, h1, h2⟩ | ⟨s, t, h1, h2, h3, h4, h5⟩
    · rw [h1, h2, error_bind, error_bind]
    · rw [h1, h2, ok_bind, ok_bind, h.align]
      unfold Sec.viewLen
      dsimp only
      rw [h4]

theorem ptr (rva : Nat) (b : Bool) : SameRes (p.ptrFromRva rva .virt b) (r.ptrFromRva rva .virt b) := by
  unfold Image.ptrFromRva SameRes
  rw [h.hdr]
  split
  · rfl
  · rcases h.section_of rva with ⟨e, h1, h2⟩ | ⟨s, t, h1, h2, h3, h4, h5⟩
    · rw [h1, h2, error_bind, error_bind]
    · rw [h1, h2, ok_bind, ok_bind, h.align]
      unfold Sec.view
      dsimp only
      rw [h3, h5]

theorem strAt (e : Err) (rva : Nat) : SameRes (p.strAt e rva) (r.strAt e rva) :=
  SameRes.bind (h.dataLenFrom rva rva true) fun _ => SameRes.bind' fun _ =>
    SameRes.bind (h.ptr rva true) fun _ => SameRes.refl _

theorem vaToRva (va : Nat) (b : Bool) : r.vaToRva va b = p.vaToRva va b := by
  unfold Image.vaToRva Image.vaToRva32 Image.vaToRva64
  rw [h.kind, h.base]

/-! Exports -/

theorem exportName (ords names ordinal n i : Nat) :
    SameRes (p.exportName ords names ordinal n i) (r.exportName ords names ordinal n i) := by
  induction n generalizing i with
  | zero => exact SameRes.refl _
  | succ n ih =>
    exact SameRes.bind (h.readInt _ _ _) fun _ => SameRes.ite
      (fun _ => SameRes.bind (h.readInt _ _ _) fun _ => SameRes.bind (h.strAt _ _) fun _ => SameRes.refl _) fun _ => ih _

theorem exportFwd (a b rva : Nat) : SameRes (p.exportFwd a b rva) (r.exportFwd a b rva) :=
  SameRes.ite (fun _ => h.strAt _ _) fun _ => SameRes.refl _

theorem exportLoop (d : Bytes) (a b n i : Nat) : SameRes (p.exportLoop d a b n i) (r.exportLoop d a b n i) := by
  induction n generalizing i with
  | zero => exact SameRes.refl _
  | succ n ih =>
    refine SameRes.bind (h.readInt _ _ _) fun rva => SameRes.ite (fun _ => ih _) fun _ => SameRes.bind' fun _ =>
      SameRes.bind (h.exportName _ _ _ _ _) fun o => ?_
    cases o with
    | none => exact SameRes.bind (ih _) fun _ => SameRes.refl _
    | some o => exact SameRes.bind (h.exportFwd _ _ _) fun _ => SameRes.bind (ih _) fun _ => SameRes.refl _

theorem exportCheck (d : Bytes) (a b : Nat) : SameRes (p.exportCheck d a b) (r.exportCheck d a b) :=
  SameRes.bind' fun _ => SameRes.bind' fun _ => SameRes.bind (h.dataLenFrom _ _ _) fun _ => SameRes.bind' fun _ =>
    SameRes.ite (fun _ => SameRes.bind (h.dataLenFrom _ _ _) fun _ => SameRes.bind' fun _ =>
      SameRes.bind (h.dataLenFrom _ _ _) fun _ => SameRes.refl _) fun _ => SameRes.refl _

/-! Imports -/

theorem importFn (a l : Nat) : SameRes (p.importFn a l) (r.importFn a l) := by
  unfold Image.importFn
  rw [h.kind]
  exact SameRes.ite (fun _ => SameRes.refl _) fun _ => SameRes.bind' fun _ => SameRes.bind (h.strAt _ _) fun _ =>
    SameRes.bind (h.readInt _ _ _) fun _ => SameRes.refl _

theorem importThunks (th orig : Nat) : SameRes (p.importThunks th orig) (r.importThunks th orig) := by
  generalize hn : 4294967296 - th = n
  induction n using Nat.strongRecOn generalizing th orig with
  | _ n ih =>
    rw [Image.importThunks.eq_1 p th orig, Image.importThunks.eq_1 r th orig, h.kind]
    refine SameRes.bind (h.readInt _ _ _) fun _ => SameRes.ite (fun _ => SameRes.refl _) fun _ =>
      SameRes.bind (h.readInt _ _ _) fun _ => SameRes.ite (fun _ => SameRes.refl _) fun _ =>
      SameRes.bind (h.importFn _ _) fun _ => SameRes.dite (fun hlt => SameRes.bind (ih _ ?_ _ _ rfl) fun _ => SameRes.refl _)
        fun _ => SameRes.refl _
    have := Nat.mod_lt (th + p.kind.ptr) (show 0 < 4294967296 by decide)
    simp only [w32] at hlt ⊢
    omega

theorem importTables (a b : Nat) : SameRes (p.importTables a b) (r.importTables a b) := by
  unfold Image.importTables Image.importLookup0
  rw [h.kind]
  exact SameRes.bind (h.readInt _ _ _) fun _ => SameRes.bind (SameRes.ite (fun _ => SameRes.refl _) fun _ => h.readInt _ _ _) fun _ =>
    SameRes.ite (fun _ => h.importThunks _ _) fun _ => SameRes.refl _

theorem importLoop (pos : Nat) (d : Bytes) : SameRes (p.importLoop pos d) (r.importLoop pos d) := by
  generalize hn : 4294967296 - pos = n
  induction n using Nat.strongRecOn generalizing pos d with
  | _ n ih =>
    rw [Image.importLoop.eq_1 p pos d, Image.importLoop.eq_1 r pos d]
    refine SameRes.ite (fun _ => SameRes.refl _) fun _ => SameRes.bind (h.strAt _ _) fun _ => SameRes.bind (h.importTables _ _) fun _ =>
      SameRes.dite (fun hs => SameRes.bind (h.readT _ _ _) fun _ => SameRes.bind (ih _ ?_ _ _ rfl) fun _ => SameRes.refl _)
        fun _ => SameRes.refl _
    simp only [isSumSafe, decide_eq_true_eq] at hs
    omega

/-! Relocations -/

theorem relocEntries (b : Bool) (pos size i : Nat) : SameRes (p.relocEntries b pos size i) (r.relocEntries b pos size i) := by
  generalize hn : size - i = n
  induction n using Nat.strongRecOn generalizing i with
  | _ n ih =>
    rw [Image.relocEntries.eq_1 p b pos size i, Image.relocEntries.eq_1 r b pos size i]
    refine SameRes.ite (fun hlt => SameRes.bind (h.readInt _ _ _) fun _ => SameRes.bind (ih _ ?_ _ rfl) fun _ => SameRes.refl _)
      fun _ => SameRes.refl _
    omega

theorem relocBlocks (b : Bool) (size pos x y z : Nat) :
    SameRes (p.relocBlocks b size pos x y z) (r.relocBlocks b size pos x y z) := by
  generalize hn : 4294967296 - pos = n
  induction n using Nat.strongRecOn generalizing pos x y z with
  | _ n ih =>
    rw [Image.relocBlocks.eq_1 p b size pos x y z, Image.relocBlocks.eq_1 r b size pos x y z]
    refine SameRes.ite (fun hy => SameRes.dite (fun _ => SameRes.refl _) fun hs => SameRes.bind (h.relocEntries _ _ _ _) fun _ =>
      SameRes.ite (fun _ => SameRes.refl _) fun _ => SameRes.bind (h.readT _ _ _) fun _ => SameRes.bind (ih _ ?_ _ _ _ _ rfl) fun _ =>
      SameRes.refl _) fun _ => SameRes.refl _
    simp only [isSumSafe, decide_eq_false_iff_not] at hs
    omega

/-! Exceptions -/

theorem excLoop (pos : Nat) (d : Bytes) : SameRes (p.excLoop pos d) (r.excLoop pos d) := by
  generalize hn : 4294967296 - pos = n
  induction n using Nat.strongRecOn generalizing pos d with
  | _ n ih =>
    rw [Image.excLoop.eq_1 p pos d, Image.excLoop.eq_1 r pos d]
    refine SameRes.ite (fun _ => SameRes.bind' fun _ => SameRes.bind (h.readT _ _ _) fun _ => SameRes.bind (h.readT _ _ _) fun _ =>
      SameRes.dite (fun hlt => SameRes.bind (ih _ ?_ _ _ rfl) fun _ => SameRes.refl _) fun _ => SameRes.refl _) fun _ => SameRes.refl _
    have : w32 (pos + 12) < 4294967296 := Nat.mod_lt _ (by decide)
    omega

/-! TLS -/

theorem tlsFixed (a b : Nat) : r.tlsFixed a b = p.tlsFixed a b := by
  unfold Image.tlsFixed
  rw [h.vaToRva]

theorem tlsCheck (a b : Nat) : SameRes (p.tlsCheck a b) (r.tlsCheck a b) := by
  unfold Image.tlsCheck
  rw [h.vaToRva, h.kind]
  exact SameRes.ite (fun _ => SameRes.bind' fun _ => SameRes.bind (h.dataLenFrom _ _ _) fun _ => SameRes.refl _) fun _ => SameRes.refl _

theorem rvaOrZero (va : Nat) : r.rvaOrZero va = p.rvaOrZero va := by
  unfold Image.rvaOrZero
  rw [h.vaToRva]

theorem tlsRaw (a b : Nat) : SameRes (p.tlsRaw a b) (r.tlsRaw a b) := by
  unfold Image.tlsRaw
  rw [h.vaToRva, h.kind]
  exact SameRes.ite (fun _ => SameRes.bind' fun _ => SameRes.bind (h.ptr _ _) fun _ => SameRes.refl _) fun _ => SameRes.refl _

theorem tlsLoop (table fuel cur : Nat) : SameRes (p.tlsLoop table fuel cur) (r.tlsLoop table fuel cur) := by
  induction fuel generalizing cur with
  | zero => exact SameRes.refl _
  | succ n ih =>
    unfold Image.tlsLoop
    rw [h.kind, h.vaToRva]
    refine SameRes.bind' fun _ => SameRes.bind (h.readInt _ _ _) fun va => SameRes.ite (fun _ => SameRes.refl _) fun _ => ?_
    rw [h.vaToRva]
    exact SameRes.bind' fun _ => SameRes.bind (ih _) fun _ => SameRes.refl _

theorem tlsCallbacks (a table : Nat) : SameRes (p.tlsCallbacks a table) (r.tlsCallbacks a table) := by
  unfold Image.tlsCallbacks
  generalize 4294967296 = fuel
  exact SameRes.ite (fun _ => h.tlsLoop _ _ _) fun _ => SameRes.refl _

/-! Resources -/

theorem resName (res off : Nat) : SameRes (p.resName res off) (r.resName res off) :=
  SameRes.bind' fun _ => SameRes.bind (h.readInt _ _ _) fun _ => SameRes.bind (h.dataLenFrom _ _ _) fun _ => SameRes.bind' fun _ =>
    SameRes.bind (h.ptr _ _) fun _ => SameRes.refl _

theorem resKey (res : Nat) (e : Bytes) : SameRes (p.resKey res e) (r.resKey res e) :=
  SameRes.ite (fun _ => SameRes.bind (h.resName _ _) fun _ => SameRes.refl _) fun _ => SameRes.refl _

theorem resData (res off : Nat) : SameRes (p.resData res off) (r.resData res off) :=
  SameRes.bind (h.readT _ _ _) fun _ => SameRes.bind (h.dataLenFrom _ _ _) fun _ => SameRes.bind' fun _ =>
    SameRes.bind (h.ptr _ _) fun _ => SameRes.refl _

theorem resEntry (res : Nat) {f g : Nat → List Nat → Res (ResDir × List Nat)} (hf : ∀ a s, SameRes (f a s) (g a s)) (pos : Nat)
    (seen : List Nat) : SameRes (p.resEntry res f pos seen) (r.resEntry res g pos seen) :=
  SameRes.bind (h.readT _ _ _) fun _ => SameRes.bind (h.resKey _ _) fun _ =>
    SameRes.ite (fun _ => SameRes.bind (hf _ _) fun _ => SameRes.refl _) fun _ => SameRes.bind (h.resData _ _) fun _ => SameRes.refl _

theorem resEntries (res off : Nat) {f g : Nat → List Nat → Res (ResDir × List Nat)} (hf : ∀ a s, SameRes (f a s) (g a s))
    (n i : Nat) (d : ResDir) (seen : List Nat) : SameRes (p.resEntries res off f n i d seen) (r.resEntries res off g n i d seen) := by
  induction n generalizing i d seen with
  | zero => exact SameRes.refl _
  | succ n ih => exact SameRes.bind (h.resEntry res hf _ _) fun _ => ih _ _ _

theorem resDir (res fuel off : Nat) (seen : List Nat) : SameRes (p.resDir res fuel off seen) (r.resDir res fuel off seen) := by
  induction fuel generalizing off seen with
  | zero => exact SameRes.refl _
  | succ n ih =>
    exact SameRes.bind' fun _ => SameRes.bind' fun _ => SameRes.bind (h.readT _ _ _) fun _ => SameRes.bind' fun _ =>
      h.resEntries _ _ (fun _ _ => ih _ _) _ _ _ _


/-! Debug information -/

theorem debugLoop (hd : r.debugData = p.debugData) (fin pos : Nat) (d : Bytes) (acc : List DebugInfo) :
    SameRes (p.debugLoop fin pos d acc) (r.debugLoop fin pos d acc) := by
  generalize hn : 4294967296 - pos = n
  induction n using Nat.strongRecOn generalizing pos d acc with
  | _ n ih =>
    rw [Image.debugLoop.eq_1 p fin pos d acc, Image.debugLoop.eq_1 r fin pos d acc, hd]
    refine SameRes.ite (fun _ => SameRes.bind' fun _ => SameRes.bind' fun _ => SameRes.bind (h.readT _ _ _) fun _ =>
      SameRes.dite (fun hlt => ih _ ?_ _ _ _ rfl) fun _ => SameRes.refl _) fun _ => SameRes.refl _
    have : w32 (pos + 28) < 4294967296 := Nat.mod_lt _ (by decide)
    omega

/-! The directories are announced at the same places. -/

theorem dir (id : Nat) : SameDir p r id := by
  constructor
  · unfold Image.hasDir NtHdr.directoryExists NtHdr.dirAt; rw [h.num, h.dirs]
  · unfold NtHdr.getDirRva NtHdr.dirAt; rw [h.num, h.dirs]
  · unfold NtHdr.getDirSize NtHdr.dirAt; rw [h.num, h.dirs]

theorem getExports : SameRes p.getExports r.getExports := by
  have hd := h.dir dirExport
  unfold Image.getExports
  rw [hd.has, hd.rva, hd.size]
  exact SameRes.bind' fun _ => SameRes.ite (fun _ => SameRes.bind' fun _ => SameRes.bind' fun _ => SameRes.bind (h.dataLenFrom _ _ _) fun _ =>
    SameRes.bind' fun _ => SameRes.bind (h.readT _ _ _) fun _ =>
    SameRes.bind (SameRes.bind (h.strAt _ _) fun _ => SameRes.refl _) fun _ => SameRes.ite (fun _ => SameRes.refl _) fun _ =>
      SameRes.bind (h.exportCheck _ _ _) fun _ => SameRes.bind (h.exportLoop _ _ _ _ _) fun _ => SameRes.refl _) fun _ => SameRes.refl _

theorem getImports : SameRes p.getImports r.getImports := by
  have hd := h.dir dirImport
  unfold Image.getImports
  rw [hd.has, hd.rva]
  exact SameRes.bind' fun _ => SameRes.ite (fun _ => SameRes.bind' fun _ => SameRes.bind (h.readT _ _ _) fun _ =>
    h.importLoop _ _) fun _ => SameRes.refl _

theorem getResources :
    SameRes p.getResources r.getResources := by
  have hd := h.dir dirResource
  unfold Image.getResources
  rw [hd.has, hd.rva]
  generalize 2147483649 = fuel
  exact SameRes.bind' fun _ => SameRes.ite (fun _ => SameRes.bind' fun _ => SameRes.bind (h.resDir _ _ _ _) fun _ => SameRes.refl _)
    fun _ => SameRes.refl _

theorem getExceptions :
    SameRes p.getExceptions r.getExceptions := by
  have hd := h.dir dirException
  unfold Image.getExceptions
  rw [hd.has, hd.rva]
  exact SameRes.bind' fun _ => SameRes.ite (fun _ => SameRes.bind' fun _ => SameRes.bind (h.dataLenFrom _ _ _) fun _ =>
    SameRes.bind' fun _ => SameRes.bind' fun _ => SameRes.bind (h.readT _ _ _) fun _ => h.excLoop _ _) fun _ => SameRes.refl _

theorem getRelocations (b : Bool) : SameRes (p.getRelocations b) (r.getRelocations b) := by
  have hd := h.dir dirBaseReloc
  have hr : r.hasReloc = p.hasReloc := by
    have := hd.has
    unfold Image.hasDir at this
    unfold Image.hasReloc
    rw [this, h.chars]
  unfold Image.getRelocations
  rw [hr, hd.rva, hd.size]
  exact SameRes.bind' fun _ => SameRes.ite (fun _ => SameRes.bind' fun _ => SameRes.bind (h.dataLenFrom _ _ _) fun _ =>
    SameRes.bind' fun _ => SameRes.bind (h.readT _ _ _) fun _ => SameRes.bind' fun _ => SameRes.bind' fun _ => h.relocBlocks _ _ _ _ _ _)
    fun _ => SameRes.refl _

theorem getTls : SameRes p.getTls r.getTls := by
  have hd := h.dir dirTls
  unfold Image.getTls
  rw [hd.has, hd.rva, h.kind]
  refine SameRes.bind' fun _ => SameRes.bind' fun _ => SameRes.bind' fun _ => SameRes.bind (h.readT _ _ _) fun _ => ?_
  dsimp only
  simp only [h.tlsFixed, h.rvaOrZero]
  exact SameRes.bind (h.tlsCheck _ _) fun _ => SameRes.bind' fun _ => SameRes.bind' fun _ => SameRes.bind' fun _ => SameRes.bind' fun _ =>
    SameRes.bind (h.tlsRaw _ _) fun _ => SameRes.bind (h.tlsCallbacks _ _) fun _ => SameRes.refl _


theorem getDebug (hdd : r.debugData = p.debugData) : SameRes p.getDebug r.getDebug := by
  have hd := h.dir dirDebug
  unfold Image.getDebug
  rw [hd.has, hd.rva, hd.size]
  exact SameRes.bind' fun _ => SameRes.ite (fun _ => SameRes.bind' fun _ => SameRes.bind (h.dataLenFrom _ _ _) fun _ =>
    SameRes.bind' fun _ => SameRes.bind (h.readT _ _ _) fun _ => SameRes.bind' fun _ => SameRes.bind' fun _ =>
    h.debugLoop hdd _ _ _ _) fun _ => SameRes.refl _

theorem getDotNet : SameRes p.getDotNet r.getDotNet := by
  have hd := h.dir dirComDescriptor
  unfold Image.getDotNet
  rw [hd.has, hd.rva]
  exact SameRes.bind' fun _ => SameRes.bind' fun _ => SameRes.bind' fun _ => SameRes.bind (h.readT _ _ _) fun _ => SameRes.refl _

end SameView

end PE
