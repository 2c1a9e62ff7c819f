import Verif.Props.StorageFile
/-! # C72: what a failed first save leaves in the file -/
namespace MLMC

/-- C72, what is not true: a failed save does not leave the file as it was.  If the first format saved to a file (with names as locations) cannot be encoded, the file has afterwards a format with as many
quantities, of empty texts, shapes 0 x 0, times 0 and empty locations, and `save_result_format` refuses every format with a quantity that has a name, a unit or another shape - the corrected format too. -/
theorem C72_failed_first_save (fmt : List QSpec) (d : FormatDtype) (hd : formatDtype fmt = .ok d) (hp : d.points = false) (e : PyErr) (hfail : saveResultFormat none fmt = .error e) :
    formatAfter none fmt = some (List.replicate fmt.length
      { name := [], unit := [], shape := [0, 0], times := List.replicate d.nTimes 0, locations := List.replicate d.nLocs (.name []) }) ∧
    ∀ (fmt' : List QSpec) (q : QSpec), q ∈ fmt' → (q.name ≠ [] ∨ q.unit ≠ [] ∨ q.shape ≠ [0, 0]) → saveResultFormat (formatAfter none fmt) fmt' = .error .valueError := by
  have hafter : formatAfter none fmt = some (List.replicate fmt.length
      { name := [], unit := [], shape := [0, 0], times := List.replicate d.nTimes 0, locations := List.replicate d.nLocs (.name []) }) := by
    simp only [formatAfter, hfail, hd, zeroRow, hp, Bool.false_eq_true, if_false]
  refine ⟨hafter, fun fmt' q hq hne => ?_⟩
  rw [hafter]
  set z : QSpec := { name := [], unit := [], shape := [0, 0], times := List.replicate d.nTimes 0, locations := List.replicate d.nLocs (.name []) } with hz
  have hdec : decodeFormat (some (List.replicate fmt.length z)) = .ok (List.replicate fmt.length z) := by
    rw [decodeFormat, if_pos]
    rw [List.all_eq_true]
    intro r hr
    rw [List.eq_of_mem_replicate hr, List.all_eq_true]
    intro loc hloc
    rw [List.eq_of_mem_replicate hloc]
  have hneq : formatEq (List.replicate fmt.length z) fmt' = false := by
    rw [Bool.eq_false_iff]
    intro h
    rw [formatEq, Bool.and_eq_true, beq_iff_eq, List.length_replicate] at h
    obtain ⟨i, hi, rfl⟩ := List.getElem_of_mem hq
    have := List.all_eq_true.1 h.2 _ (List.getElem_mem (l := List.zipWith QSpec.pyEq (List.replicate fmt.length z) fmt') (n := i) (by simp; omega))
    rw [List.getElem_zipWith, List.getElem_replicate] at this
    simp only [id, QSpec.pyEq, Bool.and_eq_true, beq_iff_eq] at this
    obtain ⟨⟨⟨⟨h1, h2⟩, h3⟩, -⟩, -⟩ := this
    rcases hne with h | h | h
    · exact h h1.symm
    · exact h h2.symm
    · exact h h3.symm
  simp only [saveResultFormat, hdec, hneq, Bool.false_eq_true, if_false]

/-- The unit `m²` of one quantity with two times and two wells. -/
example : let q : QSpec := ⟨"area".toList, "m²".toList, [1, 1], [1, 2], [.name "well".toList, .name "pump".toList]⟩
    formatDtype [q] = .ok ⟨2, 2, false⟩ ∧ saveResultFormat none [q] = .error .valueError := by decide +kernel

end MLMC
