import Verif.Model.PoolPem
import Verif.Spec.CertFull
/-!
# The certificates of a PEM file
-/
namespace Apk

/-- What `pem.Decode` leaves is shorter than what it was given. -/
def DecodeShrinks (decode : Bytes → Option (PemBlock × Bytes)) : Prop := ∀ b blk rest, decode b = some (blk, rest) → rest.length < b.length

/-- The blocks of a text, one after the other. -/
inductive PemBlocksAre (decode : Bytes → Option (PemBlock × Bytes)) : Bytes → List PemBlock → Prop
  | empty : PemBlocksAre decode [] []
  | none {text : Bytes} : decode text = none → PemBlocksAre decode text []
  | cons {text rest : Bytes} {blk : PemBlock} {blks : List PemBlock} : text ≠ [] → decode text = some (blk, rest) → PemBlocksAre decode rest blks →
      PemBlocksAre decode text (blk :: blks)

/-- The block is called CERTIFICATE, has no headers and has the certificate `x` in it. -/
def CertBlockIs (env : CertEnv) (blk : PemBlock) (x : CertFull) : Prop :=
  blk.type = b!"CERTIFICATE" ∧ blk.headers = [] ∧ FullCertificateIs env blk.bytes x

/-- The certificates that are found in blocks, in this order; other blocks are passed over. -/
inductive CertsInBlocks (env : CertEnv) : List PemBlock → List CertFull → Prop
  | nil : CertsInBlocks env [] []
  | skip {blk : PemBlock} {blks : List PemBlock} {certs : List CertFull} : (∀ x, ¬ CertBlockIs env blk x) → CertsInBlocks env blks certs →
      CertsInBlocks env (blk :: blks) certs
  | take {blk : PemBlock} {blks : List PemBlock} {certs : List CertFull} {x : CertFull} : CertBlockIs env blk x → CertsInBlocks env blks certs →
      CertsInBlocks env (blk :: blks) (x :: certs)

end Apk
