import Verif.Props.Pmd
import Verif.Lemmas.ConnExact

/-!
# Theorems about failures and about the closing handshake apply to permessage-deflate
-/

namespace WS

open Spec

/-- A property of any `zlib` in a real computer: `decompress` doesn't return 2^64 bytes, and it only
raises `zlib.error` or `ValueError`. -/
structure Spec.Physical (Z : Zlib) : Prop where
  size : ∀ {d data max out d'}, Z.decompress d data max = (.ok out, d') → out.length < 2 ^ 64
  raises : ∀ {d data max e d'}, Z.decompress d data max = (.error e, d') →
    e = .zlibError ∨ ∃ m, e = .valueError m

theorem unknownMsg_short {lim : Option Int} : FewDigits lim →
    Short (p!"over size limit (? > " ++
      (match lim with | none => p!"None" | some m => intStr m) ++ p!" bytes)") := by
  cases lim with
  | none => intro _; decide
  | some m =>
    intro h
    have h2 := intStr_length m 40 (h m rfl)
    have a1 : ∀ x ∈ p!"over size limit (? > ", x < 128 := by decide
    have a3 : ∀ x ∈ p!" bytes)", x < 128 := by decide
    refine ⟨?_, ?_⟩
    · intro x hx
      simp only [List.mem_append] at hx
      rcases hx with (hx | hx) | hx
      · exact a1 x hx
      · exact intStr_ascii m x hx
      · exact a3 x hx
    · have l1 : (p!"over size limit (? > ").length = 21 := by decide
      have l3 : (p!" bytes)").length = 7 := by decide
      simp only [List.length_append, l1, l3]
      omega

theorem Pmd.inflate_tame {Z : Zlib} (hZ : Physical Z) {p p' : Pmd Z} {f : Frame}
    {lim : Option Int} :
    (∀ {e}, FewDigits lim → p.inflate f lim = (.error e, p') → BriefExc e) ∧
      (∀ {f'}, p.inflate f lim = (.ok f', p') → f'.data.length < 2 ^ 64) := by
  unfold Pmd.inflate
  cases hd : p.decoder with
  | none =>
    refine ⟨fun _ h => ?_, fun h => ?_⟩
    · cases h; trivial
    · cases h
  | some dec =>
    simp only
    cases hr : Z.decompress dec (if f.fin then f.data ++ emptyBlock else f.data) (lim.getD 0) with
    | mk r dec' =>
      cases r with
      | error e =>
        refine ⟨fun _ h => ?_, fun h => ?_⟩
        · simp only [Prod.mk.injEq, Except.error.injEq] at h
          rw [← h.1]
          rcases hZ.raises hr with rfl | ⟨m, rfl⟩ <;> trivial
        · cases h
      | ok out =>
        simp only
        split
        · refine ⟨fun hl h => ?_, fun h => ?_⟩
          · simp only [Prod.mk.injEq, Except.error.injEq] at h
            rw [← h.1]
            exact unknownMsg_short hl
          · cases h
        · refine ⟨fun _ h => ?_, fun h => ?_⟩
          · cases h
          · simp only [Prod.mk.injEq, Except.ok.injEq] at h
            rw [← h.1]
            exact hZ.size hr

/-- permessage-deflate meets the conditions of theorems about connections. -/
theorem pmdOps_tame {Z : Zlib} (hZ : Physical Z) : (pmdOps Z).Tame where
  lawful := pmdOps_lawful Z
  transparent x f hf := by simp only [pmdOps, Pmd.encode, hf, if_true]
  brief {x f lim e x'} hl h := by
    simp only [pmdOps, Pmd.decode] at h
    repeat' split at h
    all_goals first
      | (cases h; done)
      | exact (Pmd.inflate_tame hZ).1 hl h
  sane {x f lim f' x'} h hlen := by
    simp only [pmdOps, Pmd.decode] at h
    repeat' split at h
    all_goals first
      | exact (Pmd.inflate_tame hZ).2 h
      | (simp only [Prod.mk.injEq, Except.ok.injEq] at h; rw [← h.1]; exact hlen)

/-- A codec that raises `zlib.error` instead of returning too much. -/
def Zlib.capped (Z : Zlib) : Zlib :=
  { Z with
    decompress := fun d data max =>
      match Z.decompress d data max with
      | (.error _, d) => (.error .zlibError, d)
      | (.ok out, d) => if out.length < 2 ^ 64 then (.ok out, d) else (.error .zlibError, d) }

theorem Zlib.capped_eq (Z : Zlib) (d : Z.Dec) (data : Bytes) (max : Int) :
    Z.capped.decompress d data max = match Z.decompress d data max with
      | (.error _, d) => (.error .zlibError, d)
      | (.ok out, d) => if out.length < 2 ^ 64 then (.ok out, d) else (.error .zlibError, d) := rfl

theorem Zlib.capped_physical (Z : Zlib) : Physical Z.capped where
  size {d data max out d'} h := by
    rw [Zlib.capped_eq Z d] at h
    cases hr : Z.decompress d data max with
    | mk r d1 =>
      rw [hr] at h
      cases r with
      | error e => cases h
      | ok o =>
        simp only at h
        split at h
        · rename_i hlt
          cases h
          exact hlt
        · cases h
  raises {d data max e d'} h := by
    rw [Zlib.capped_eq Z d] at h
    cases hr : Z.decompress d data max with
    | mk r d1 =>
      rw [hr] at h
      cases r with
      | error e => cases h; exact .inl rfl
      | ok o =>
        simp only at h
        split at h
        · cases h
        · cases h; exact .inl rfl

-- There are such codecs.
example : (pmdOps storedZlib.capped).Tame := pmdOps_tame storedZlib.capped_physical

end WS
