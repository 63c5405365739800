import Verif.Spec.WellTyped
/-
`thrift_spec[fid]` and the generated `if fid == k` chain find the same field.
-/

namespace Thrift
open Spec

theorem thriftSpecFrom_get (fs : List Field) (pos : Int) (idx k : Nat)
    (hp : ∀ f ∈ fs, pos ≤ f.fid) (hs : fs.Pairwise (fun f g => f.fid < g.fid)) :
    (match (thriftSpecFrom pos idx fs)[k]? with | some (some i) => some i | _ => none)
      = (fs.findIdx? (fun f => f.fid == pos + k)).map (· + idx) := by
  induction fs generalizing pos idx k with
  | nil => simp [thriftSpecFrom]
  | cons f fs ih =>
    have hf : pos ≤ f.fid := hp f (by simp)
    obtain ⟨g, hg⟩ : ∃ g : Nat, f.fid = pos + g := ⟨(f.fid - pos).toNat, by omega⟩
    have hgn : (f.fid - pos).toNat = g := by omega
    simp only [thriftSpecFrom, hgn, List.findIdx?_cons]
    have hlt : ∀ h ∈ fs, f.fid < h.fid := (List.pairwise_cons.mp hs).1
    by_cases h1 : k < g
    · rw [List.getElem?_append_left (by simpa using h1)]
      have : fs.findIdx? (fun f => f.fid == pos + ↑k) = none := by
        rw [List.findIdx?_eq_none_iff]
        intro x hx
        have := hlt x hx
        simp; omega
      simp only [List.getElem?_replicate, h1, if_true, this, beq_iff_eq]
      rw [if_neg (by omega)]
      rfl
    · rw [List.getElem?_append_right (by simp; omega)]
      simp only [List.length_replicate]
      by_cases h2 : k = g
      · subst h2
        simp [hg]
      · obtain ⟨j, hj⟩ : ∃ j, k - g = j + 1 := ⟨k - g - 1, by omega⟩
        rw [hj, List.getElem?_cons_succ]
        rw [ih (f.fid + 1) (idx + 1) j (fun h hh => by have := hlt h hh; omega)
          (List.pairwise_cons.mp hs).2]
        have e : f.fid + 1 + (j : Int) = pos + k := by omega
        rw [e]
        simp only [beq_iff_eq]
        rw [if_neg (by omega)]
        cases fs.findIdx? (fun f => f.fid == pos + ↑k) with
        | none => rfl
        | some x => simp; omega

theorem lookupField_eq {mode : Mode} {fs : List Field} {fid : Int} (h : FieldsOK fs)
    (hn : mode = .dyn → (∀ f ∈ fs, 0 ≤ f.fid) ∧ 0 ≤ fid) :
    lookupField mode fs fid = fs.findIdx? (fun f => f.fid == fid) := by
  cases mode with
  | gen => rfl
  | dyn =>
    obtain ⟨h0, hf⟩ := hn rfl
    simp only [lookupField]
    cases hfs : fs with
    | nil => simp [thriftSpec, pyIndex]
    | cons f fs' =>
      have hts : thriftSpec (f :: fs') = thriftSpecFrom 0 0 fs := by
        rw [← hfs]
        rw [hfs]
        simp only [thriftSpec]
        rw [if_pos (h0 f (by simp [hfs]))]
      rw [hts, ← hfs]
      have := thriftSpecFrom_get fs 0 0 fid.toNat h0 h.1
      simp only [pyIndex, hf, if_true]
      refine Eq.trans this ?_
      have e : (0 : Int) + (fid.toNat : Int) = fid := by omega
      rw [e]
      cases fs.findIdx? (fun f => f.fid == fid) <;> rfl

theorem findIdx_some {fs : List Field} {fid : Int} {i : Nat}
    (h : fs.findIdx? (fun f => f.fid == fid) = some i) :
    ∃ f, fs[i]? = some f ∧ f.fid = fid := by
  rw [List.findIdx?_eq_some_iff_getElem] at h
  obtain ⟨hl, h1, _⟩ := h
  exact ⟨fs[i], by simp [hl], by simpa using h1⟩

end Thrift
