/-
A decidable condition under which an image can be saved (used for examples).
-/
import Verif.Props.SaveLoad
namespace PE

/-- Contiguity as a boolean. -/
def contigB (a : Nat) : List Sec → Bool
  | s :: t :: l => decide (t.va = s.va + s.span a) && contigB a (t :: l)
  | _ => true

theorem contigB_iff {a : Nat} {l : List Sec} (h : contigB a l = true) : Contig a l := by
  induction l with
  | nil => trivial
  | cons s l ih =>
    cases l with
    | nil => trivial
    | cons t l =>
      unfold contigB at h
      rw [Bool.and_eq_true, decide_eq_true_eq] at h
      exact ⟨h.1, ih h.2⟩

def pow2B (a : Nat) : Bool := (List.range 32).any fun k => decide (a = 2 ^ k)

theorem pow2B_iff {a : Nat} (h : pow2B a = true) : Pow2 a := by
  unfold pow2B at h
  rw [List.any_eq_true] at h
  obtain ⟨k, h1, h2⟩ := h
  exact ⟨k, List.mem_range.mp h1, of_decide_eq_true h2⟩

/-- A section of an image whose alignments are `sa` and `fa`. -/
def secB (sa fa : Nat) (s : Sec) : Bool :=
  decide (s.name.length = 8) && decide (s.vsize < 4294967296) && decide (s.va < 4294967296) && decide (s.rawSize < 4294967296) &&
  decide (s.rawPtr < 4294967296) && decide (s.relPtr < 4294967296) && decide (s.linePtr < 4294967296) && decide (s.nReloc < 65536) &&
  decide (s.nLine < 65536) && decide (s.chars < 4294967296) && decide (s.va + s.span sa < 2 ^ 32) && decide (sa ∣ s.va) &&
  decide (s.data.length = s.rawSize) && decide (s.vsize ≠ 0) && decide (s.vsize ≤ 2 ^ 31) && decide (s.rawSize ≤ 2 ^ 31) &&
  decide (ceilTo s.rawSize fa ≤ ceilTo s.vsize sa) && decide (s.rawSize ≠ 0)

/-- The image can be saved with `rebuild_pe(strip = false, change_size_of_headers = true, save_bound_import = false)`. -/
def saveableB (p : Image) : Bool :=
  decide (p.nt.dirs.length = 16) && decide (p.nt.numRva ≤ 16) && decide (p.stub.length ≤ 2 ^ 31 - 68) && decide (p.boundDir.2 < 4294967296) &&
  decide (p.dos.length = 60) && decide (rd 2 p.dos 0 = 0x5a4d) && decide (p.nt.signature = 0x4550) &&
  decide (p.nt.magic = p.kind.magic) && decide (∀ f ∈ ntFields p.kind p.nt, f.2 < 256 ^ f.1) &&
  decide (p.kind = .pe64 → p.nt.baseOfData = 0) && decide (∀ d ∈ p.nt.dirs, d.1 < 2 ^ 32 ∧ d.2 < 2 ^ 32) &&
  decide (p.nt.fileAlign = p.nt.secAlign ∨ (512 ≤ p.nt.fileAlign ∧ p.nt.fileAlign ≤ p.nt.secAlign)) &&
  pow2B p.nt.secAlign && pow2B p.nt.fileAlign && decide (p.nt.fileAlign ≤ p.nt.secAlign) &&
  contigB p.nt.secAlign p.secs && decide (p.nt.numSections = p.secs.length) && decide (p.secs.length ≤ 96) &&
  decide (p.secs ≠ []) && p.secs.all (secB p.nt.secAlign p.nt.fileAlign) && decide (p.FileFits false (p.savesBound false))

theorem saveable_of_check {p : Image} (h : saveableB p = true) : p.Saveable false true false := by
  unfold saveableB at h
  simp only [Bool.and_eq_true, decide_eq_true_eq, List.all_eq_true] at h
  obtain ⟨⟨⟨⟨⟨⟨⟨⟨⟨⟨⟨⟨⟨⟨⟨⟨⟨⟨⟨⟨h1, h2⟩, h3⟩, h4⟩, h5⟩, h6⟩, h7⟩, h8⟩, h9⟩, h10⟩, h11⟩, h12⟩, h13⟩, h14⟩, h15⟩, h16⟩, h17⟩, h18⟩, h19⟩, h20⟩,
    h21⟩ := h
  have hs : ∀ s ∈ p.secs, s.InRange ∧ s.va + s.span p.nt.secAlign < 2 ^ 32 ∧ p.nt.secAlign ∣ s.va ∧
      (s.data.length = s.rawSize ∧ s.vsize ≠ 0 ∧ s.vsize ≤ 2 ^ 31 ∧ s.rawSize ≤ 2 ^ 31 ∧
        ceilTo s.rawSize p.nt.fileAlign ≤ ceilTo s.vsize p.nt.secAlign) ∧ s.rawSize ≠ 0 := by
    intro s hm
    have g := h20 s hm
    unfold secB at g
    simp only [Bool.and_eq_true, decide_eq_true_eq] at g
    obtain ⟨⟨⟨⟨⟨⟨⟨⟨⟨⟨⟨⟨⟨⟨⟨⟨⟨g1, g2⟩, g3⟩, g4⟩, g5⟩, g6⟩, g7⟩, g8⟩, g9⟩, g10⟩, g11⟩, g12⟩, g13⟩, g14⟩, g15⟩, g16⟩, g17⟩, g18⟩ := g
    exact ⟨⟨g1, g2, g3, g4, g5, g6, g7, g8, g9, g10⟩, g11, g12, ⟨g13, g14, g15, g16, g17⟩, g18⟩
  refine ⟨⟨⟨h1, h2⟩, by omega, by omega, h4⟩, ⟨h5, fun s hm => (hs s hm).1.name, fun s hm => (hs s hm).1.rawSize⟩, h6, h3, h7, h8,
    ⟨h9, h10⟩, h11, h12, ⟨pow2B_iff h13, pow2B_iff h14, h15, ?_, fun s hm => (hs s hm).2.2.1, ?_, contigB_iff h16, h17, h18, ?_⟩, h19,
    fun s hm => (hs s hm).1, fun s hm => (hs s hm).2.2.2.1, .inl rfl, ?_, h21⟩
  · exact fun s hm => ⟨(hs s hm).1.vsize, (hs s hm).1.rawSize, (hs s hm).1.rawPtr, (hs s hm).2.1⟩
  · exact fun s hm hc => (hs s hm).2.2.2.2 hc.2
  · intro s hm
    obtain ⟨g1, -, -, ⟨g2, g3, -⟩, -⟩ := hs s hm
    exact ⟨by rw [g2]; exact g1.rawSize, fun g => absurd g g3⟩
  · intro i s hi h0
    exact absurd h0 (hs s (List.mem_of_getElem? hi)).2.2.2.2

end PE
