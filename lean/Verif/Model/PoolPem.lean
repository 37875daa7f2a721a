import Verif.Model.Chain
import Verif.Model.Pem
/-!
# Pools of certificates from PEM files (internal/x509andr/cert_pool.go:106-143)

`pem.Decode` is a parameter: the first block of a text and what follows it, `none` if there is none.
-/
namespace Apk

/-- cert_pool.go:113-133 `AppendCertsFromPEM`, the loop; `fuel` bounds the number of its rounds: `pem.Decode` returns a shorter rest. -/
def appendPemLoop (decode : Bytes → Option (PemBlock × Bytes)) (env : CertEnv) : Nat → Bytes → CertPool → Bool → Go (CertPool × Bool)
  | 0, _, s, ok => .ok (s, ok)
  | fuel + 1, text, s, ok =>
    if text.length > 0 then
      match decode text with
      | none => .ok (s, ok)
      | some (block, rest) =>
        if block.type ≠ b!"CERTIFICATE" ∨ block.headers.length ≠ 0 then appendPemLoop decode env fuel rest s ok
        else match parseFull env block.bytes with
          | .error p => .error p
          | .ok none => appendPemLoop decode env fuel rest s ok
          | .ok (some cert) => appendPemLoop decode env fuel rest (s.add cert) true
    else .ok (s, ok)

/-- cert_pool.go:112-133 `AppendCertsFromPEM`. -/
def CertPool.appendPem (decode : Bytes → Option (PemBlock × Bytes)) (env : CertEnv) (s : CertPool) (text : Bytes) : Go (CertPool × Bool) :=
  appendPemLoop decode env text.length text s false

/-- cert_pool.go:137-143 `Subjects`. -/
def CertPool.subjects (s : CertPool) : List Bytes := s.certs.map (fun c => c.rawSubject)

end Apk
