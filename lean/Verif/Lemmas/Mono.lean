/-
Transfer of readings from one image to another one with the same sections: whatever is read from the sections of `p`
(not from its headers) is read from `r`, too.
-/
import Verif.Lemmas.Basic
import Verif.Model.BoundImport
import Verif.Model.Exception
import Verif.Model.Exports
import Verif.Model.Imports
import Verif.Model.LoadConfig
import Verif.Model.Reloc
import Verif.Model.Resources
import Verif.Model.Tls
namespace PE

/-- Every value of `x` is the value of `y`. -/
def OkLe {α : Type} (x y : Res α) : Prop := ∀ v, x = .ok v → y = .ok v

theorem OkLe.refl {α : Type} (x : Res α) : OkLe x x := fun _ h => h

theorem OkLe.of_eq {α : Type} {x y : Res α} (h : x = y) : OkLe x y := h ▸ OkLe.refl x

theorem OkLe.bind {α β : Type} {x y : Res α} {f g : α → Res β} (h : OkLe x y) (hf : ∀ v, OkLe (f v) (g v)) :
    OkLe (x >>= f) (y >>= g) := by
  intro w hw
  rw [bind_ok_iff] at hw ⊢
  obtain ⟨v, h1, h2⟩ := hw
  exact ⟨v, h v h1, hf v w h2⟩

theorem OkLe.bind' {α β : Type} {x : Res α} {f g : α → Res β} (hf : ∀ v, OkLe (f v) (g v)) :
    OkLe (x >>= f) (x >>= g) := OkLe.bind (OkLe.refl x) hf

theorem OkLe.ite {α : Type} {c : Prop} [Decidable c] {x y x' y' : Res α} (h1 : c → OkLe x x') (h2 : ¬ c → OkLe y y') :
    OkLe (if c then x else y) (if c then x' else y') := by
  by_cases h : c
  · rw [if_pos h, if_pos h]; exact h1 h
  · rw [if_neg h, if_neg h]; exact h2 h

theorem OkLe.dite {α : Type} {c : Prop} [Decidable c] {x x' : c → Res α} {y y' : ¬ c → Res α}
    (h1 : ∀ h, OkLe (x h) (x' h)) (h2 : ∀ h, OkLe (y h) (y' h)) :
    OkLe (if h : c then x h else y h) (if h : c then x' h else y' h) := by
  by_cases h : c
  · rw [dif_pos h, dif_pos h]; exact h1 h
  · rw [dif_neg h, dif_neg h]; exact h2 h

/-- A section without the position of its data in the file. -/
def Sec.noPtr (s : Sec) : Sec := { s with rawPtr := 0 }

/-- The sections of `r` are those of `p` (they may lie elsewhere in the file), `p` has no header bytes, and the header
    bytes of `r` end before the sections. -/
structure SameSecs (p r : Image) : Prop where
  kind : r.kind = p.kind
  base : r.nt.imageBase = p.nt.imageBase
  align : r.nt.secAlign = p.nt.secAlign
  secs : r.secs.map Sec.noPtr = p.secs.map Sec.noPtr
  none : p.hdrData = []
  below : ∀ s ∈ r.secs, r.hdrData.length ≤ s.va

theorem find_noPtr {a rva : Nat} {l m : List Sec} (h : m.map Sec.noPtr = l.map Sec.noPtr) {s : Sec}
    (hs : l.find? (fun s => s.containsRva a rva) = some s) :
    ∃ t, m.find? (fun s => s.containsRva a rva) = some t ∧ t.noPtr = s.noPtr := by
  induction l generalizing m with
  | nil => simp at hs
  | cons x l ih =>
    cases m with
    | nil => simp at h
    | cons y m =>
      rw [List.map_cons, List.map_cons] at h
      have h1 := (List.cons.inj h).1
      have h2 := (List.cons.inj h).2
      have hc : y.containsRva a rva = x.containsRva a rva := by
        have e : ∀ z : Sec, z.noPtr.containsRva a rva = z.containsRva a rva := fun _ => rfl
        rw [← e y, h1, e x]
      rw [List.find?_cons] at hs ⊢
      rw [hc]
      by_cases hx : x.containsRva a rva = true
      · rw [hx] at hs ⊢
        exact ⟨y, rfl, by rw [h1, Option.some.inj hs]⟩
      · rw [Bool.not_eq_true] at hx
        rw [hx] at hs ⊢
        exact ih h2 hs

namespace SameSecs
variable {p r : Image} (h : SameSecs p r)
include h

/-- The section of an address. -/
theorem section_of {rva : Nat} {s : Sec} (hs : p.sectionFromRva rva = .ok s) :
    ∃ t, r.sectionFromRva rva = .ok t ∧ t.noPtr = s.noPtr ∧ r.hdrData.length ≤ rva := by
  unfold Image.sectionFromRva at hs ⊢
  cases hf : p.secs.find? (fun s => s.containsRva p.nt.secAlign rva) with
  | none => rw [hf] at hs; simp [throwE] at hs
  | some x =>
    rw [hf] at hs
    have hx : x = s := Except.ok.inj hs
    subst hx
    obtain ⟨t, h1, h2⟩ := find_noPtr h.secs hf
    rw [h.align, h1]
    refine ⟨t, rfl, h2, ?_⟩
    have hm := List.mem_of_find?_eq_some h1
    have hc := List.find?_some h1
    unfold Sec.containsRva at hc
    rw [Bool.and_eq_true, decide_eq_true_eq] at hc
    exact Nat.le_trans (h.below t hm) hc.1

theorem readT (n rva : Nat) (t : DataType) (b : Bool) : OkLe (p.readT n rva t b) (r.readT n rva t b) := by
  intro v hv
  unfold Image.readT at hv ⊢
  rw [if_neg (by rw [h.none]; simp)] at hv
  rw [bind_ok_iff] at hv
  obtain ⟨s, h1, h2⟩ := hv
  obtain ⟨s', h3, h4, h5⟩ := h.section_of h1
  rw [if_neg (by omega), h3, ok_bind, h.align]
  have e1 : s'.view t p.nt.secAlign = s.view t p.nt.secAlign := by
    have e : ∀ z : Sec, z.noPtr.view t p.nt.secAlign = z.view t p.nt.secAlign := by intro z; cases t <;> rfl
    rw [← e s', h4, e s]
  have e2 : s'.va = s.va := show s'.noPtr.va = s.noPtr.va by rw [h4]
  rw [e1, e2]
  exact h2

theorem readInt (n rva : Nat) (t : DataType) (b : Bool) : OkLe (p.readInt n rva t b) (r.readInt n rva t b) :=
  OkLe.bind (h.readT n rva t b) fun _ => OkLe.refl _

theorem dataLenFrom (rva rva' : Nat) (t : DataType) (b : Bool) :
    OkLe (p.dataLenFrom rva rva' t b) (r.dataLenFrom rva rva' t b) := by
  intro v hv
  unfold Image.dataLenFrom at hv ⊢
  rw [if_neg (by rw [h.none]; simp)] at hv
  rw [bind_ok_iff] at hv
  obtain ⟨s, h1, h2⟩ := hv
  obtain ⟨s', h3, h4, h5⟩ := h.section_of h1
  rw [if_neg (by omega), h3, ok_bind, h.align]
  have e1 : s'.viewLen t p.nt.secAlign = s.viewLen t p.nt.secAlign := by
    have e : ∀ z : Sec, z.noPtr.viewLen t p.nt.secAlign = z.viewLen t p.nt.secAlign := by intro z; cases t <;> rfl
    rw [← e s', h4, e s]
  have e2 : s'.va = s.va := show s'.noPtr.va = s.noPtr.va by rw [h4]
  rw [e1, e2]
  exact h2

theorem ptr (rva : Nat) (t : DataType) (b : Bool) : OkLe (p.ptrFromRva rva t b) (r.ptrFromRva rva t b) := by
  intro v hv
  unfold Image.ptrFromRva at hv ⊢
  rw [if_neg (by rw [h.none]; simp)] at hv
  rw [bind_ok_iff] at hv
  obtain ⟨s, h1, h2⟩ := hv
  obtain ⟨s', h3, h4, h5⟩ := h.section_of h1
  rw [if_neg (by omega), h3, ok_bind, h.align]
  have e1 : s'.view t p.nt.secAlign = s.view t p.nt.secAlign := by
    have e : ∀ z : Sec, z.noPtr.view t p.nt.secAlign = z.view t p.nt.secAlign := by intro z; cases t <;> rfl
    rw [← e s', h4, e s]
  have e2 : s'.va = s.va := show s'.noPtr.va = s.noPtr.va by rw [h4]
  rw [e1, e2]
  exact h2

theorem strAt (e : Err) (rva : Nat) : OkLe (p.strAt e rva) (r.strAt e rva) :=
  OkLe.bind (h.dataLenFrom rva rva .virt true) fun _ => OkLe.bind' fun _ =>
    OkLe.bind (h.ptr rva .virt true) fun _ => OkLe.refl _

theorem vaToRva (va : Nat) (b : Bool) : r.vaToRva va b = p.vaToRva va b := by
  unfold Image.vaToRva Image.vaToRva32 Image.vaToRva64
  rw [h.kind, h.base]

/-! Exports -/

theorem exportName (ords names ordinal n i : Nat) :
    OkLe (p.exportName ords names ordinal n i) (r.exportName ords names ordinal n i) := by
  induction n generalizing i with
  | zero => exact OkLe.refl _
  | succ n ih =>
    exact OkLe.bind (h.readInt _ _ _ _) fun _ => OkLe.ite
      (fun _ => OkLe.bind (h.readInt _ _ _ _) fun _ => OkLe.bind (h.strAt _ _) fun _ => OkLe.refl _) fun _ => ih _

theorem exportFwd (a b rva : Nat) : OkLe (p.exportFwd a b rva) (r.exportFwd a b rva) :=
  OkLe.ite (fun _ => h.strAt _ _) fun _ => OkLe.refl _

theorem exportLoop (d : Bytes) (a b n i : Nat) : OkLe (p.exportLoop d a b n i) (r.exportLoop d a b n i) := by
  induction n generalizing i with
  | zero => exact OkLe.refl _
  | succ n ih =>
    refine OkLe.bind (h.readInt _ _ _ _) fun rva => OkLe.ite (fun _ => ih _) fun _ => OkLe.bind' fun _ =>
      OkLe.bind (h.exportName _ _ _ _ _) fun o => ?_
    cases o with
    | none => exact OkLe.bind (ih _) fun _ => OkLe.refl _
    | some o => exact OkLe.bind (h.exportFwd _ _ _) fun _ => OkLe.bind (ih _) fun _ => OkLe.refl _

theorem exportCheck (d : Bytes) (a b : Nat) : OkLe (p.exportCheck d a b) (r.exportCheck d a b) :=
  OkLe.bind' fun _ => OkLe.bind' fun _ => OkLe.bind (h.dataLenFrom _ _ _ _) fun _ => OkLe.bind' fun _ =>
    OkLe.ite (fun _ => OkLe.bind (h.dataLenFrom _ _ _ _) fun _ => OkLe.bind' fun _ =>
      OkLe.bind (h.dataLenFrom _ _ _ _) fun _ => OkLe.refl _) fun _ => OkLe.refl _

/-! Imports -/

theorem importFn (a l : Nat) : OkLe (p.importFn a l) (r.importFn a l) := by
  unfold Image.importFn
  rw [h.kind]
  exact OkLe.ite (fun _ => OkLe.refl _) fun _ => OkLe.bind' fun _ => OkLe.bind (h.strAt _ _) fun _ =>
    OkLe.bind (h.readInt _ _ _ _) fun _ => OkLe.refl _

theorem importThunks (th orig : Nat) : OkLe (p.importThunks th orig) (r.importThunks th orig) := by
  generalize hn : 4294967296 - th = n
  induction n using Nat.strongRecOn generalizing th orig with
  | _ n ih =>
    rw [Image.importThunks.eq_1 p th orig, Image.importThunks.eq_1 r th orig, h.kind]
    refine OkLe.bind (h.readInt _ _ _ _) fun _ => OkLe.ite (fun _ => OkLe.refl _) fun _ =>
      OkLe.bind (h.readInt _ _ _ _) fun _ => OkLe.ite (fun _ => OkLe.refl _) fun _ =>
      OkLe.bind (h.importFn _ _) fun _ => OkLe.dite (fun hlt => OkLe.bind (ih _ ?_ _ _ rfl) fun _ => OkLe.refl _)
        fun _ => OkLe.refl _
    have := Nat.mod_lt (th + p.kind.ptr) (show 0 < 4294967296 by decide)
    simp only [w32] at hlt ⊢
    omega

theorem importTables (a b : Nat) : OkLe (p.importTables a b) (r.importTables a b) := by
  unfold Image.importTables Image.importLookup0
  rw [h.kind]
  exact OkLe.bind (h.readInt _ _ _ _) fun _ => OkLe.bind (OkLe.ite (fun _ => OkLe.refl _) fun _ => h.readInt _ _ _ _) fun _ =>
    OkLe.ite (fun _ => h.importThunks _ _) fun _ => OkLe.refl _

theorem importLoop (pos : Nat) (d : Bytes) : OkLe (p.importLoop pos d) (r.importLoop pos d) := by
  generalize hn : 4294967296 - pos = n
  induction n using Nat.strongRecOn generalizing pos d with
  | _ n ih =>
    rw [Image.importLoop.eq_1 p pos d, Image.importLoop.eq_1 r pos d]
    refine OkLe.ite (fun _ => OkLe.refl _) fun _ => OkLe.bind (h.strAt _ _) fun _ => OkLe.bind (h.importTables _ _) fun _ =>
      OkLe.dite (fun hs => OkLe.bind (h.readT _ _ _ _) fun _ => OkLe.bind (ih _ ?_ _ _ rfl) fun _ => OkLe.refl _)
        fun _ => OkLe.refl _
    simp only [isSumSafe, decide_eq_true_eq] at hs
    omega

/-! Relocations -/

theorem relocEntries (b : Bool) (pos size i : Nat) : OkLe (p.relocEntries b pos size i) (r.relocEntries b pos size i) := by
  generalize hn : size - i = n
  induction n using Nat.strongRecOn generalizing i with
  | _ n ih =>
    rw [Image.relocEntries.eq_1 p b pos size i, Image.relocEntries.eq_1 r b pos size i]
    refine OkLe.ite (fun hlt => OkLe.bind (h.readInt _ _ _ _) fun _ => OkLe.bind (ih _ ?_ _ rfl) fun _ => OkLe.refl _)
      fun _ => OkLe.refl _
    omega

theorem relocBlocks (b : Bool) (size pos x y z : Nat) :
    OkLe (p.relocBlocks b size pos x y z) (r.relocBlocks b size pos x y z) := by
  generalize hn : 4294967296 - pos = n
  induction n using Nat.strongRecOn generalizing pos x y z with
  | _ n ih =>
    rw [Image.relocBlocks.eq_1 p b size pos x y z, Image.relocBlocks.eq_1 r b size pos x y z]
    refine OkLe.ite (fun hy => OkLe.dite (fun _ => OkLe.refl _) fun hs => OkLe.bind (h.relocEntries _ _ _ _) fun _ =>
      OkLe.ite (fun _ => OkLe.refl _) fun _ => OkLe.bind (h.readT _ _ _ _) fun _ => OkLe.bind (ih _ ?_ _ _ _ _ rfl) fun _ =>
      OkLe.refl _) fun _ => OkLe.refl _
    simp only [isSumSafe, decide_eq_false_iff_not] at hs
    omega

/-! Exceptions -/

theorem excLoop (pos : Nat) (d : Bytes) : OkLe (p.excLoop pos d) (r.excLoop pos d) := by
  generalize hn : 4294967296 - pos = n
  induction n using Nat.strongRecOn generalizing pos d with
  | _ n ih =>
    rw [Image.excLoop.eq_1 p pos d, Image.excLoop.eq_1 r pos d]
    refine OkLe.ite (fun _ => OkLe.bind' fun _ => OkLe.bind (h.readT _ _ _ _) fun _ => OkLe.bind (h.readT _ _ _ _) fun _ =>
      OkLe.dite (fun hlt => OkLe.bind (ih _ ?_ _ _ rfl) fun _ => OkLe.refl _) fun _ => OkLe.refl _) fun _ => OkLe.refl _
    have : w32 (pos + 12) < 4294967296 := Nat.mod_lt _ (by decide)
    omega

/-! Load configuration -/

theorem readVaInt (n va : Nat) : OkLe (p.readVaInt n va) (r.readVaInt n va) := by
  unfold Image.readVaInt
  rw [h.vaToRva]
  exact OkLe.bind' fun _ => h.readInt _ _ _ _

theorem seLoop (table i n : Nat) : OkLe (p.seLoop table i n) (r.seLoop table i n) := by
  induction n generalizing i with
  | zero => exact OkLe.refl _
  | succ n ih =>
    unfold Image.seLoop
    rw [h.kind]
    exact OkLe.bind (h.readVaInt _ _) fun _ => OkLe.bind (ih _) fun _ => OkLe.refl _

theorem lockLoop (table fuel cur : Nat) : OkLe (p.lockLoop table fuel cur) (r.lockLoop table fuel cur) := by
  induction fuel generalizing cur with
  | zero => exact OkLe.refl _
  | succ n ih =>
    unfold Image.lockLoop
    rw [h.kind]
    refine OkLe.bind (h.readVaInt _ _) fun va => OkLe.ite (fun _ => OkLe.refl _) fun _ => ?_
    rw [h.vaToRva]
    exact OkLe.bind' fun _ => OkLe.bind (ih _) fun _ => OkLe.refl _

theorem lockPrefixes (table : Nat) : OkLe (p.lockPrefixes table) (r.lockPrefixes table) := by
  unfold Image.lockPrefixes
  generalize 4294967296 = fuel
  exact OkLe.ite (fun _ => h.lockLoop _ _ _) fun _ => OkLe.refl _

/-! TLS -/

theorem tlsFixed (a b : Nat) : r.tlsFixed a b = p.tlsFixed a b := by
  unfold Image.tlsFixed
  rw [h.vaToRva]

theorem tlsCheck (a b : Nat) : OkLe (p.tlsCheck a b) (r.tlsCheck a b) := by
  unfold Image.tlsCheck
  rw [h.vaToRva, h.kind]
  exact OkLe.ite (fun _ => OkLe.bind' fun _ => OkLe.bind (h.dataLenFrom _ _ _ _) fun _ => OkLe.refl _) fun _ => OkLe.refl _

theorem rvaOrZero (va : Nat) : r.rvaOrZero va = p.rvaOrZero va := by
  unfold Image.rvaOrZero
  rw [h.vaToRva]

theorem tlsRaw (a b : Nat) : OkLe (p.tlsRaw a b) (r.tlsRaw a b) := by
  unfold Image.tlsRaw
  rw [h.vaToRva, h.kind]
  exact OkLe.ite (fun _ => OkLe.bind' fun _ => OkLe.bind (h.ptr _ _ _) fun _ => OkLe.refl _) fun _ => OkLe.refl _

theorem tlsLoop (table fuel cur : Nat) : OkLe (p.tlsLoop table fuel cur) (r.tlsLoop table fuel cur) := by
  induction fuel generalizing cur with
  | zero => exact OkLe.refl _
  | succ n ih =>
    unfold Image.tlsLoop
    rw [h.kind, h.vaToRva]
    refine OkLe.bind' fun _ => OkLe.bind (h.readInt _ _ _ _) fun va => OkLe.ite (fun _ => OkLe.refl _) fun _ => ?_
    rw [h.vaToRva]
    exact OkLe.bind' fun _ => OkLe.bind (ih _) fun _ => OkLe.refl _

theorem tlsCallbacks (a table : Nat) : OkLe (p.tlsCallbacks a table) (r.tlsCallbacks a table) := by
  unfold Image.tlsCallbacks
  generalize 4294967296 = fuel
  exact OkLe.ite (fun _ => h.tlsLoop _ _ _) fun _ => OkLe.refl _

/-! Resources -/

theorem resName (res off : Nat) : OkLe (p.resName res off) (r.resName res off) :=
  OkLe.bind' fun _ => OkLe.bind (h.readInt _ _ _ _) fun _ => OkLe.bind (h.dataLenFrom _ _ _ _) fun _ => OkLe.bind' fun _ =>
    OkLe.bind (h.ptr _ _ _) fun _ => OkLe.refl _

theorem resKey (res : Nat) (e : Bytes) : OkLe (p.resKey res e) (r.resKey res e) :=
  OkLe.ite (fun _ => OkLe.bind (h.resName _ _) fun _ => OkLe.refl _) fun _ => OkLe.refl _

theorem resData (res off : Nat) : OkLe (p.resData res off) (r.resData res off) :=
  OkLe.bind (h.readT _ _ _ _) fun _ => OkLe.bind (h.dataLenFrom _ _ _ _) fun _ => OkLe.bind' fun _ =>
    OkLe.bind (h.ptr _ _ _) fun _ => OkLe.refl _

theorem resEntry (res : Nat) {f g : Nat → List Nat → Res (ResDir × List Nat)} (hf : ∀ a s, OkLe (f a s) (g a s)) (pos : Nat)
    (seen : List Nat) : OkLe (p.resEntry res f pos seen) (r.resEntry res g pos seen) :=
  OkLe.bind (h.readT _ _ _ _) fun _ => OkLe.bind (h.resKey _ _) fun _ =>
    OkLe.ite (fun _ => OkLe.bind (hf _ _) fun _ => OkLe.refl _) fun _ => OkLe.bind (h.resData _ _) fun _ => OkLe.refl _

theorem resEntries (res off : Nat) {f g : Nat → List Nat → Res (ResDir × List Nat)} (hf : ∀ a s, OkLe (f a s) (g a s))
    (n i : Nat) (d : ResDir) (seen : List Nat) : OkLe (p.resEntries res off f n i d seen) (r.resEntries res off g n i d seen) := by
  induction n generalizing i d seen with
  | zero => exact OkLe.refl _
  | succ n ih => exact OkLe.bind (h.resEntry res hf _ _) fun _ => ih _ _ _

theorem resDir (res fuel off : Nat) (seen : List Nat) : OkLe (p.resDir res fuel off seen) (r.resDir res fuel off seen) := by
  induction fuel generalizing off seen with
  | zero => exact OkLe.refl _
  | succ n ih =>
    exact OkLe.bind' fun _ => OkLe.bind' fun _ => OkLe.bind (h.readT _ _ _ _) fun _ => OkLe.bind' fun _ =>
      h.resEntries _ _ (fun _ _ => ih _ _) _ _ _ _

end SameSecs

end PE
