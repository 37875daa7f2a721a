import Verif.Spec.Time
import Verif.Spec.X509
/-! # Where the parts of a certificate are -/
namespace Apk.Spec

/-- `e` is a time of a certificate and stands for the Unix time `t`: a UTCTime (tag 23) or a GeneralizedTime (tag 24). -/
def TimeElem (te : TimeEnv) (t : Int) (e : Bytes) : Prop :=
  (∃ s c z, Elem 0 23 false s e ∧ UtcText s c z ∧ t = utcInstant te c z) ∨ (∃ s c z, Elem 0 24 false s e ∧ GenText s c z ∧ t = instant c z)

/-- A certificate `b`, with the version (possibly empty), the serial number, a signature algorithm, the issuer, the validity, the subject
    and the key info one after the other. Other fields may follow, in all three sequences. -/
def CertLayout (te : TimeEnv) (b : Bytes) (serial notBefore notAfter : Int) (issuer subject spki : Bytes) : Prop :=
  ∃ tbs outer ver ser alg val e1 e2 more inVal,
    Elem 0 16 true (tbs ++ outer) b ∧
    Elem 0 16 true (ver ++ ser ++ alg ++ issuer ++ val ++ subject ++ spki ++ more) tbs ∧
    IntElem serial ser ∧ AnyElem issuer ∧ AnyElem subject ∧
    Elem 0 16 true (e1 ++ e2 ++ inVal) val ∧ TimeElem te notBefore e1 ∧ TimeElem te notAfter e2

end Apk.Spec
