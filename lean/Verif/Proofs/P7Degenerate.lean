import Verif.Proofs.P7Sign
/-! # What `DegenerateCertificate` writes -/
namespace Apk
namespace P7S
open P7M Mar

theorem tagged_slice_ok {menv : MarEnv} {e : Ty} {k : Nat} (v : List e.interp) {b : Bytes}
    (h : makeField menv (.slice false e) { tag := some (k : Int) } v = .ok b) :
    ∃ encs, makeElems (makeField menv e {}) v = .ok encs ∧ b = tlv 2 true k encs.flatten := by
  have h := (make_slice (s := false) (e := e) v).symm.trans h
  rcases fieldTagged_ok h with ⟨h1, rfl⟩ | ⟨_, t, t', c, _, _, e1, hset, hc, rfl⟩
  · exact absurd ((omits_required (mp := { tag := some (k : Int) }) rfl rfl (.slice false e) v).symm.trans h1) (by simp)
  · cases e1
    rcases hset with ⟨h1, _⟩ | ⟨_, rfl⟩
    · cases h1
    · cases he : makeElems (makeField menv e {}) v with
      | error er => rw [he] at hc; cases hc
      | ok encs =>
        rw [he] at hc
        have hc := Except.ok.inj hc
        have h16 : ¬ ((menv.sortSets && decide (((if (false = true) then 17 else 16) : Int) = 17)) = true) := by simp
        dsimp only at hc
        rw [if_neg h16] at hc
        subst hc
        refine ⟨encs, rfl, ?_⟩
        show encodeHeader 2 (k : Int) _ true ++ _ = _
        rw [encodeHeader, if_neg (by omega)]
        rfl

/-- The message without signers, with these certificates. -/
theorem degenerate_written {env : P7Env} {certs : List Bytes} {b : Bytes} (hc : certs.flatten.length < 2 ^ 31) (hd : ∀ c ∈ certs, DerSeq c)
    (h : degenerate env certs.flatten = .ok b) (hl : b.length < 2 ^ 31) :
    MessageEnc [1,2,840,113549,1,7,1] none certs [] b ∧ ∃ t, DerEnc t b := by
  unfold degenerate at h
  cases hi : marshal env.mar signedDataCrlTy (signedGo [] [1,2,840,113549,1,7,1] {} (certsRaw certs.flatten) []) with
  | error e => rw [hi] at h; cases h
  | ok inner =>
    rw [hi] at h
    unfold wrapContent at h
    dsimp only at h
    cases hw : marshal env.mar contentInfoTy (([] : Bytes), [1,2,840,113549,1,7,2], (⟨2, 0, true, inner, []⟩ : RawVal), ()) with
    | error e => rw [hw] at h; cases h
    | ok b' =>
      rw [hw] at h
      cases h
      unfold marshal at hw hi
      rw [mp_empty] at hw hi
      have hi0 := hi
      have hw0 := hw
      obtain ⟨o, ho, rfl⟩ := content_bytes hw
      have l1 := tlv_length 0 16 true (tlv 0 false 6 o ++ tlv 2 true 0 inner)
      have l2 := tlv_length 0 6 false o
      have l3 := tlv_length 2 0 true inner
      have l4 : (tlv 0 false 6 o ++ tlv 2 true 0 inner).length = (tlv 0 false 6 o).length + (tlv 2 true 0 inner).length := List.length_append
      constructor
      · obtain ⟨c', h', rfl⟩ := struct_ok (fs := .cons (b!"default:1") .int (.cons (b!"set") (.slice false algIdTy) (.cons [] contentInfoTy
          (.cons (b!"optional,tag:0") rawCertsTy (.cons (b!"tag:1") (.slice false certListTy) (.cons (b!"set") (.slice false signerInfoTy) .nil)))))) [] _ hi
        obtain ⟨x1, r1, h1, h2, rfl⟩ := cons_ok (t := .int) (fs := .cons (b!"set") (.slice false algIdTy) (.cons [] contentInfoTy
          (.cons (b!"optional,tag:0") rawCertsTy (.cons (b!"tag:1") (.slice false certListTy) (.cons (b!"set") (.slice false signerInfoTy) .nil))))) _ _ h'
        obtain ⟨x2, r2, h3, h4, rfl⟩ := cons_ok (t := .slice false algIdTy) (fs := .cons [] contentInfoTy
          (.cons (b!"optional,tag:0") rawCertsTy (.cons (b!"tag:1") (.slice false certListTy) (.cons (b!"set") (.slice false signerInfoTy) .nil)))) _ _ h2
        obtain ⟨x3, r3, h5, h6, rfl⟩ := cons_ok (t := contentInfoTy) (fs :=
          .cons (b!"optional,tag:0") rawCertsTy (.cons (b!"tag:1") (.slice false certListTy) (.cons (b!"set") (.slice false signerInfoTy) .nil))) _ _ h4
        obtain ⟨x4, r4, h7, h8, rfl⟩ := cons_ok (t := rawCertsTy) (fs := .cons (b!"tag:1") (.slice false certListTy) (.cons (b!"set") (.slice false signerInfoTy) .nil)) _ _ h6
        obtain ⟨x5, r5, h9, h10, rfl⟩ := cons_ok (t := .slice false certListTy) (fs := .cons (b!"set") (.slice false signerInfoTy) .nil) _ _ h8
        obtain ⟨x6, r6, h11, h12, rfl⟩ := cons_ok (t := .slice false signerInfoTy) (fs := .nil) _ _ h10
        obtain rfl := nil_ok _ h12
        rw [mp_default1] at h1
        rw [mp_set] at h3 h11
        rw [mp_empty] at h5
        rw [mp_opt0] at h7
        rw [mp_tag1] at h9
        have hlen := tlv_length 0 16 true (x1 ++ (x2 ++ (x3 ++ (x4 ++ (x5 ++ (x6 ++ []))))))
        have hl2 : (x1 ++ (x2 ++ (x3 ++ (x4 ++ (x5 ++ (x6 ++ [])))))).length < 2 ^ 31 := by omega
        have hl3 := hl2
        simp only [List.length_append, List.length_nil] at hl3
        obtain rfl : x1 = tlv 0 false 2 (encodeInt64 1) := int_ok (.inr rfl) _ h1
        obtain ⟨algs, ha, rfl⟩ := set_ok (e := algIdTy) rfl _ h3
        cases ha
        have i3 := content_written (x := none) data_valid h5 (by omega)
        obtain rfl := certs_ok hc h7
        obtain ⟨crls, hcrl, rfl⟩ := tagged_slice_ok (k := 1) _ h9
        cases hcrl
        obtain ⟨encs, hs, rfl⟩ := set_ok (e := signerInfoTy) rfl _ h11
        cases hs
        have eA : Elem 0 17 true [] (tlv 0 true 17 []) := tlv_elem (by decide) (by decide) (by decide)
        have eC : Elem 2 1 true [] (tlv 2 true 1 []) := tlv_elem (by decide) (by decide) (by decide)
        have eS := tlv_elem (cls := 0) (tag := 16) (con := true) (by decide) (by decide) hl2
        have eO := oidElem_written signed_valid ho (by omega)
        have eW := tlv_elem (cls := 2) (tag := 0) (con := true) (by decide) (by decide) (Nat.lt_of_le_of_lt l3 (by omega : _ < 2 ^ 31))
        have eB := tlv_elem (cls := 0) (tag := 16) (con := true) (by decide) (by decide) (Nat.lt_of_le_of_lt l1 hl)
        have i0 : IsInt64 1 := by constructor <;> decide
        rw [List.append_nil] at eS eW eB ⊢
        exact ⟨1, _, [], [], _, x3, _, _, [], _, _, _, _, i0, intElem_written i0, .nil, eA, i3,
          .inr (tlv_elem (by decide) (by decide) hc), .inr eC, .nil, eA, eS, eO, eW, eB⟩
      · have hp : DerParts signedDataCrlTy {} (signedGo [] [1,2,840,113549,1,7,1] {} (certsRaw certs.flatten) []) :=
          struct_parts (fs := .cons (b!"default:1") .int (.cons (b!"set") (.slice false algIdTy) (.cons [] contentInfoTy
            (.cons (b!"optional,tag:0") rawCertsTy (.cons (b!"tag:1") (.slice false certListTy) (.cons (b!"set") (.slice false signerInfoTy) .nil)))))) zero_tag
            (cons_parts (t := .int) (int_parts default1_tag) (cons_parts (t := .slice false algIdTy) (slice_parts set_tag trivial)
              (cons_parts (t := contentInfoTy) (content_parts rawDer_zero empty_tag) (cons_parts (t := rawCertsTy) (certs_parts hc (derSeq_flatten hd))
                (cons_parts (t := .slice false certListTy) (slice_parts (by rw [mp_tag1]; exact tag_k (k := 1) rfl) trivial) (cons_parts (t := .slice false signerInfoTy)
                  (slice_parts set_tag trivial) nil_parts))))))
        have hs := makeField_der env.mar _ _ _ _ hi0 hp (by omega)
        exact makeField_one (by simp [contentInfoTy]) ⟨rfl, rfl⟩ hw0 (content_parts (.inr ⟨rfl, fun _ => hs⟩) zero_tag) (by omega)

end P7S
end Apk
