/-
C26: a file for which rebasing writes behind the headers.
-/
import Verif.Props.Load
import Verif.Props.Rebase
import Verif.Props.Reloc

namespace PE

/-- A file with two sections. The first one ends exactly at 4 GiB, so that the second one, which has to follow, starts at address 0, where
    the headers are. There is one relocation, in the last two bytes of the 320 bytes of headers. -/
def wrappedFile : Bytes :=
  let h := { tinyNt 2 1024 320 with sizeOptHdr := 144, numRva := 6, dirs := List.replicate 5 (0, 0) ++ [(400, 12)] }
  [0x4d, 0x5a] ++ zeros 58 ++ leBytes 4 64 ++ encFields (ntFields .pe32 h) ++ encDirs h.dirs ++
    [tinySec 15 4294967280 0 0, tinySec 1000 0 512 320].flatMap encSec ++
    (zeros 8 ++ zeros 400 ++ (leBytes 4 0 ++ leBytes 4 12 ++ leBytes 2 (0x3000 + 318) ++ leBytes 2 0) ++ zeros 100)

/-- C26, not so for all files that load: the sections of a file may wrap around the 32-bit address space and overlap the headers. Then the value to be
    relocated is read from a section (the test for the headers demands that it ends before them), but the pointer to write it is one into the headers,
    and the write goes behind the end of them. The relocations are those of the file. -/
theorem C26_wrapped_file : ∃ file p tables, load .pe32 true false true zeroDirs file = .ok p ∧ p.getRelocations = .ok tables ∧
    p.rebase tables 0x10000 = ubE .oobWrite := by
  obtain ⟨p, h1, h2⟩ := exists_of_okAnd (x := load .pe32 true false true zeroDirs wrappedFile)
    (f := fun p => okAnd p.getRelocations (fun t => match p.rebase t 0x10000 with | .error (.ub .oobWrite) => true | _ => false))
    (by decide +kernel)
  obtain ⟨t, h3, h4⟩ := exists_of_okAnd h2
  refine ⟨_, p, t, h1, h3, ?_⟩
  split at h4
  · next h => exact h
  · simp at h4

/-- C26: in an image loaded from a file none of whose sections reaches 4 GiB, and in a new one, the headers end below the sections; so that rebasing is
    safe with any relocations. -/
theorem C26_loaded_partial (k : Kind) (strict fromMem dbg : Bool) (pre : List (Nat × Nat)) (hp : pre.length = 16) (file : Bytes) (p : Image)
    (h : load k strict fromMem dbg pre file = .ok p) (hfit : ∀ s ∈ p.secs, s.va + s.span p.nt.secAlign < 2 ^ 32) :
    HeadersBelow p ∧ ∀ tables nb u, p.rebase tables nb ≠ ubE u := by
  obtain ⟨-, -, hh⟩ := C15_headers_partial k strict fromMem dbg pre hp file p h
  obtain ⟨-, h2⟩ := C15_sections_partial k strict fromMem dbg pre file p h
  have hc : Contig p.nt.secAlign p.secs := contig_of_steps (by
    intro i s t hs ht
    rw [h2 i s t hs ht, Nat.mod_eq_of_lt (hfit s (List.mem_of_getElem? hs))])
  have hb : HeadersBelow p := contig_ge hc (fun s hs => Nat.le_trans hh.headers.1 (hh.headers.2 s hs))
  exact ⟨hb, fun tables nb u => C26_safe_partial p hb tables nb u⟩

example : ∃ p, load .pe32 true false true zeroDirs tinyGood = .ok p ∧ p.secs.length = 2 ∧ p.hdrData ≠ [] ∧
    (∀ s ∈ p.secs, s.va + s.span p.nt.secAlign < 2 ^ 32) := by
  obtain ⟨p, h1, h2⟩ := exists_of_okAnd (x := load .pe32 true false true zeroDirs tinyGood)
    (f := fun p => decide (p.secs.length = 2) && (!p.hdrData.isEmpty && p.secs.all (fun s => decide (s.va + s.span p.nt.secAlign < 2 ^ 32))))
    (by decide +kernel)
  rw [Bool.and_eq_true, Bool.and_eq_true] at h2
  refine ⟨p, h1, of_decide_eq_true h2.1, fun e => ?_, fun s hs => of_decide_eq_true (List.all_eq_true.mp h2.2.2 s hs)⟩
  rw [e] at h2
  exact absurd h2.2.1 (by decide)

end PE
