import Verif.Proofs.P7Sign
import Verif.Props.Marshal
/-! # C75: what is written is DER -/
namespace Apk
open P7S

/-- C75: what is written for a value (other than a bare RawValue) is one element in DER, if the parts that are written as they are (RawValue,
    RawContent) are DER and no tag string has a negative tag. -/
theorem C75_writes_der {menv : MarEnv} {t : Ty} {v : t.interp} {b : Bytes} (h : marshal menv t v = .ok b) (hl : b.length < 2 ^ 31)
    (hr : t ≠ .rawValue) (hd : DerParts t {} v) : ∃ x, DerEnc x b := by
  rw [marshal, parseMP_nil] at h
  exact Mar.makeField_one hr ⟨rfl, rfl⟩ h hd (by omega)

/-- C75: the conversion from BER to DER that `pkcs7.Parse` starts with leaves it as it is. -/
theorem C75_stable_under_ber2der {menv : MarEnv} {t : Ty} {v : t.interp} {b : Bytes} (h : marshal menv t v = .ok b) (hl : b.length < 2 ^ 31)
    (hr : t ≠ .rawValue) (hd : DerParts t {} v) (rest : Bytes) : ber2der (b ++ rest) = .ok (.ok b) := by
  obtain ⟨x, hx⟩ := C75_writes_der h hl hr hd
  exact C41_identity_on_der hx hl rest

/-- C75: the hypotheses hold of the example for `C75_read_back`. -/
theorem exDer75 (n : Int) : DerParts exTy75 {} (exVal75 n) := by
  have ex : ∀ k, (parseMP (b!"optional,explicit,tag:0")).tag = some k → 0 ≤ k := by
    have : (parseMP (b!"optional,explicit,tag:0")).tag = some 0 := by decide
    exact tag_k (k := 0) this
  have ut : ∀ k, (parseMP (b!"utf8")).tag = some k → 0 ≤ k := tag_none (by decide)
  have leaf : ∀ (v : Ty.str.interp) {mp : MP}, (∀ k, mp.tag = some k → 0 ≤ k) → DerParts .str mp v := by
    intro v mp hm
    rw [DerParts] <;> first | exact hm | simp
  have str : DerParts .str (parseMP (b!"utf8")) ([0xC3, 0xA4] : Bytes) := leaf _ ut
  exact struct_parts (fs := .cons [] .oid (.cons (b!"optional,explicit,tag:0") .int (.cons (b!"set") (.slice false .int) (.cons (b!"utf8") .str .nil)))) zero_tag
    (cons_parts (t := .oid) (oid_parts empty_tag) (cons_parts (t := .int) (int_parts ex) (cons_parts (t := .slice false .int)
      (slice_parts set_tag ⟨int_parts zero_tag, int_parts zero_tag, trivial⟩) (cons_parts (t := .str) str nil_parts))))

example : ∃ b, marshal ⟨true, goUtf8Valid, fun _ _ => none⟩ exTy75 (exVal75 7) = .ok b ∧ ber2der b = .ok (.ok b) := by
  refine ⟨_, rfl, ?_⟩
  have := C75_stable_under_ber2der (menv := ⟨true, goUtf8Valid, fun _ _ => none⟩) (t := exTy75) (v := exVal75 7) rfl (by decide) (by simp [exTy75]) (exDer75 7) []
  rwa [List.append_nil] at this

/-- C75: a negative tag is written, as bytes that no element starts with: `tag:-1` gives the first byte 255 and no end of the tag number. -/
theorem C75_negative_tag_not_der :
    ∃ b, marshal marEnv0 (.struct false (.cons (b!"tag:-1") .int .nil)) (([] : Bytes), (5 : Int), ()) = .ok b ∧ ber2der b ≠ .ok (.ok b) := by
  refine ⟨_, rfl, ?_⟩
  decide +kernel

end Apk
