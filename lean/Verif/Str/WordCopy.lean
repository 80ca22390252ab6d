import Verif.Str.StringViolations
import Verif.Str.LayoutProps

/-!
C51: the word-wise copy of release builds reads outside the buffer of a string.
-/

namespace Verif.Str

/-- C51 is violated in release builds: `substr(8)` of a string of 25 characters copies 17 characters from `data() + 8`,
which is a multiple of 8 as `data()` is, and `initSmall` reads 24 bytes there; the buffer has 26 bytes. What it reads
past the end does not become visible (`Layout.word_copy_round_trip`). -/
theorem word_copy_outside_violated : ∃ a s B, Reach (heapCfg false) a s ∧ a 0 = some (List.replicate 25 97) ∧
    (dataPtr (.user 0) s).1 = .ok (.blk 0 0) ∧ s.heap 0 = some B ∧ B.cells.length * (heapCfg false).w = 26 ∧
    (Op.substr 1 0 8 17).spec false a = some (.done (upd a 1 (some (List.replicate 17 97)))) ∧
    B.cells.length < 8 + Layout.initSmallReads ⟨false, 1⟩ 17 := by
  obtain ⟨a, h, e, ea⟩ := reached (heapCfg_ok false) (v := 0) (xs := List.replicate 25 97)
    (ops := [.makeFill 0 0 25 97]) (by decide +kernel) (by decide +kernel)
  refine ⟨a, _, _, h, e, by decide +kernel, rfl, by decide +kernel, ?_, by decide +kernel⟩
  have e1 : a 1 = none := by
    cases ea
    rfl
  simp [Op.spec, Abs.make, e, e1]

/-- C51, the part that holds for this copy: every word it reads has a character of the source in it.  So from a
source at a multiple of 8 it reads no byte at or after the next multiple of 8 behind the source, and never from a
page or an allocation unit of 8 bytes without characters. -/
theorem word_copy_reads_partial (p : Layout.Plat) (n addr : Nat) (ha : 8 ∣ addr) :
    (∀ k, k < Layout.initSmallReads p n → ∃ i, i < n * p.w ∧ (addr + k) / 8 = (addr + i) / 8) ∧
    ∀ e, 8 ∣ e → addr + n * p.w ≤ e → addr + Layout.initSmallReads p n ≤ e := by
  obtain ⟨q, rfl⟩ := ha
  unfold Layout.initSmallReads
  generalize n * p.w = m
  refine ⟨fun k hk => ⟨k / 8 * 8, by omega, by omega⟩, ?_⟩
  rintro e ⟨r, rfl⟩ h
  omega

/-- Seventeen one-byte characters at 48: bytes 48 to 71 are read. -/
example : 48 + Layout.initSmallReads ⟨false, 1⟩ 17 = 72 ∧ 48 + 17 ≤ 72 := by decide

end Verif.Str
