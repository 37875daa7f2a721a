import Verif.Proofs.X509
/-! # Reading back PKCS#7 messages -/
namespace Apk

theorem reads_certificate {env : CertEnv} {c : Bytes} {cert : Cert} {k : Key} (h : parseCert509 env c = .ok (some (cert, k))) :
    ∃ v : certificateTy.interp, Reads env.toAsnEnv certificateTy {} v c [] ∧ parseCertStruct env (CertV.of v) = .ok (some (cert, k)) := by
  unfold parseCert509 at h
  obtain ⟨r, hr⟩ := unmAll_total env.toAsnEnv certificateTy c
  rw [hr] at h
  cases r with
  | none => cases h
  | some v => exact ⟨v, unmAll_iff.1 hr, h⟩

/-- Certificates that can be parsed one by one can be parsed when concatenated. -/
theorem splitCerts_flatten {env : CertEnv} : ∀ {certs : List Bytes} {parsed : List (Cert × Key)},
    certs.map (fun c => parseCert509 env c) = parsed.map (fun p => .ok (some p)) → ∀ fuel, certs.flatten.length ≤ fuel →
    ∃ vs, splitCerts env fuel certs.flatten = .ok (some vs) ∧ parseCertStructs env vs = .ok (some (parsed.map Prod.fst))
  | [], parsed, h, fuel, _ => by
    cases parsed with
    | cons a as => simp at h
    | nil => exact ⟨[], by cases fuel <;> rfl, rfl⟩
  | c :: cs, parsed, h, fuel, hf => by
    cases parsed with
    | nil => simp at h
    | cons a as =>
      obtain ⟨cert, k⟩ := a
      rw [List.map_cons, List.map_cons] at h
      have h1 := (List.cons.inj h).1
      have h2 := (List.cons.inj h).2
      obtain ⟨v, hv, hp⟩ := reads_certificate h1
      obtain ⟨front, hne, he, hall⟩ := reads_local hv
      rw [List.append_nil] at he
      subst he
      have hl : 0 < c.length := List.length_pos_iff.2 hne
      rw [List.flatten_cons, List.length_append] at hf
      cases fuel with
      | zero => omega
      | succ fuel =>
        obtain ⟨vs, e1, e2⟩ := splitCerts_flatten h2 fuel (by omega)
        refine ⟨CertV.of v :: vs, ?_, ?_⟩
        · rw [List.flatten_cons]
          have hnn : c ++ cs.flatten ≠ [] := by simp [hne]
          rw [splitCerts, if_neg hnn, unmFirst_iff.2 (hall cs.flatten)]
          simp only [e1]
        · rw [parseCertStructs, hp]
          simp only [e2]
          rfl

theorem reads_any {env : AsnEnv} {cls tag : Nat} {c : Bool} {content b : Bytes} (h : Elem cls tag c content b) (rest : Bytes) :
    Reads env .rawValue {} (⟨cls, tag, c, content, b⟩ : RawVal) (b ++ rest) rest := reads_raw rfl rfl h rest

theorem parseRawCerts_enc {env : CertEnv} {certs : List Bytes} {parsed : List (Cert × Key)} {b : Bytes} (h : CertsEnc certs b)
    (hp : certs.map (fun c => parseCert509 env c) = parsed.map (fun p => .ok (some p))) :
    parseRawCerts env b = .ok (some (parsed.map Prod.fst)) := by
  unfold parseRawCerts
  rcases h with ⟨rfl, rfl⟩ | h
  · cases parsed with
    | nil => rfl
    | cons a as => simp at hp
  · have hr := reads_any (env := env.toAsnEnv) h []
    rw [List.append_nil] at hr
    rw [if_neg h.ne, unmFirst_iff.2 hr]
    obtain ⟨vs, e1, e2⟩ := splitCerts_flatten hp _ (Nat.le_refl _)
    show parseCerts509 env certs.flatten = _
    unfold parseCerts509
    rw [e1]
    exact e2

theorem contentReadable_enc {env : AsnEnv} {content : RawVal} (h : content.bytes = [] ∨ ∃ x, Elem 0 4 false x content.bytes) :
    contentReadable env content = .ok true := by
  unfold contentReadable
  rcases h with h | ⟨x, h⟩
  · rw [if_pos h]
  · have hr := reads_any (env := env) h []
    rw [List.append_nil] at hr
    rw [if_neg h.ne, unmFirst_iff.2 hr]
    rfl

theorem parseP7Der_enc {env : CertEnv} {ct : List Nat} {certs : List Bytes} {signers : List P7Signer} {d : Bytes} {parsed : List (Cert × Key)}
    (h : Pkcs7Enc ct certs signers d) (hp : certs.map (fun c => parseCert509 env c) = parsed.map (fun p => .ok (some p))) :
    parseP7Der env d = .ok (some ⟨parsed.map Prod.fst, signers, ct⟩) := by
  obtain ⟨o, sd, w, ho, hsd, hw, hd⟩ := h
  obtain ⟨v, content, cs, e1, e2, e3, rsd⟩ := reads_signed (env := env.toAsnEnv) hsd
  have hne : sd ≠ [] := by
    obtain ⟨_, _, _, _, _, _, _, _, _, _, _, _, _, _, _, hE⟩ := hsd
    exact hE.ne
  obtain ⟨r, _, hr, rci⟩ := reads_content (env := env.toAsnEnv) ho (.inr ⟨sd, hne, hw⟩) hd
  have rci := rci []
  have rsd := rsd []
  rw [List.append_nil] at rci rsd
  unfold parseP7Der
  rw [unmAll_iff.2 rci]
  show dispatchP7 env [1,2,840,113549,1,7,2] r = _
  unfold dispatchP7
  rw [if_pos rfl, hr sd hw]
  unfold parseSignedData
  rw [(C54_accepts_exactly_the_grammar _ _ _ _ _).2 rsd]
  simp only [e1]
  rw [parseRawCerts_enc e2 hp]
  simp only [contentReadable_enc e3]

end Apk
