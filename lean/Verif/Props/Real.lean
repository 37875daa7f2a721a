import Verif.Props.CertLayout
import Verif.Props.P7Exact
import Verif.Props.Utf
/-! # Real certificates and signature blocks in the model

Not theorems about all inputs, but a check of the model against data that other programs wrote: certificates and a signature block made
with OpenSSL, the certificate of `TestAsn1SuperfluousLeadingZeros` (apkverifier_test.go:843-850), and `META-INF/CERT.RSA` of
testdata/asn1_unprintable.apk. What is recorded agrees with what `openssl x509 -text` prints. They also show that the hypotheses of the
theorems of C65 to C69 are met.
-/
namespace Apk.Real

/-- A machine in UTC. -/
def utc : TimeEnv := ⟨fun _ => 0, fun t => t⟩

/-- An accepted certificate with the given contents. -/
def check509 (b : Bytes) (k : Key) (s nb na : Int) (su is : Bytes) (sa : Nat) (cr : Bool) : Bool :=
  match parseCert509 (goCertEnv utc) b with
  | .ok (some (c, k')) => decide (k' = k) && decide (c.serial = s) && decide (c.notBefore = nb) && decide (c.notAfter = na) &&
      decide (c.subject.commonName = su) && decide (c.issuer.commonName = is) && decide (c.sigAlg = sa) && decide (c.critExt = cr)
  | _ => false

theorem of_check509 {b : Bytes} {k : Key} {s nb na : Int} {su is : Bytes} {sa : Nat} {cr : Bool} (h : check509 b k s nb na su is sa cr = true) :
    ∃ cert, CertificateIs (goCertEnv utc) b cert k ∧ cert.serial = s ∧ cert.notBefore = nb ∧ cert.notAfter = na ∧ cert.subject.commonName = su ∧
      cert.issuer.commonName = is ∧ cert.sigAlg = sa ∧ cert.critExt = cr := by
  unfold check509 at h
  obtain ⟨r, hr⟩ := parseCert509_total (goCertEnv utc) b
  rw [hr] at h
  rcases r with _ | ⟨c, k'⟩
  · cases h
  · simp only [Bool.and_eq_true, decide_eq_true_eq, and_assoc] at h
    obtain ⟨rfl, h⟩ := h
    exact ⟨c, parseCert509_iff.1 hr, h⟩

/-- P-256, valid from November 18, 2026 09:44:50 (UTCTime) to July 10, 2051 09:44:50 (GeneralizedTime), made with OpenSSL. -/
def ecDer : Bytes := [
  48, 130, 1, 180, 48, 130, 1, 89, 160, 3, 2, 1, 2, 2, 2, 18, 52, 48, 10, 6, 8, 42, 134, 72,
  206, 61, 4, 3, 2, 48, 53, 49, 11, 48, 9, 6, 3, 85, 4, 6, 19, 2, 67, 90, 49, 14, 48, 12,
  6, 3, 85, 4, 10, 12, 5, 65, 118, 97, 115, 116, 49, 22, 48, 20, 6, 3, 85, 4, 3, 12, 13, 195,
  156, 110, 195, 175, 99, 111, 100, 101, 32, 226, 130, 172, 48, 32, 23, 13, 50, 54, 49, 49, 49, 56, 48, 57,
  52, 52, 53, 48, 90, 24, 15, 50, 48, 53, 49, 48, 55, 49, 48, 48, 57, 52, 52, 53, 48, 90, 48, 53,
  49, 11, 48, 9, 6, 3, 85, 4, 6, 19, 2, 67, 90, 49, 14, 48, 12, 6, 3, 85, 4, 10, 12, 5,
  65, 118, 97, 115, 116, 49, 22, 48, 20, 6, 3, 85, 4, 3, 12, 13, 195, 156, 110, 195, 175, 99, 111, 100,
  101, 32, 226, 130, 172, 48, 89, 48, 19, 6, 7, 42, 134, 72, 206, 61, 2, 1, 6, 8, 42, 134, 72, 206,
  61, 3, 1, 7, 3, 66, 0, 4, 120, 86, 248, 249, 61, 243, 238, 92, 238, 33, 84, 219, 160, 147, 168, 212,
  72, 149, 241, 174, 187, 126, 72, 68, 211, 142, 44, 135, 247, 207, 9, 12, 139, 11, 47, 66, 205, 83, 121, 10,
  19, 33, 198, 233, 34, 24, 144, 87, 139, 162, 196, 25, 233, 196, 176, 73, 149, 235, 114, 121, 50, 152, 229, 116,
  163, 87, 48, 85, 48, 12, 6, 3, 85, 29, 19, 1, 1, 255, 4, 2, 48, 0, 48, 14, 6, 3, 85, 29,
  15, 1, 1, 255, 4, 4, 3, 2, 7, 128, 48, 22, 6, 3, 85, 29, 17, 4, 15, 48, 13, 130, 11, 101,
  120, 97, 109, 112, 108, 101, 46, 111, 114, 103, 48, 29, 6, 3, 85, 29, 14, 4, 22, 4, 20, 123, 236, 211,
  71, 199, 239, 68, 215, 10, 170, 58, 47, 157, 61, 50, 88, 239, 45, 151, 217, 48, 10, 6, 8, 42, 134, 72,
  206, 61, 4, 3, 2, 3, 73, 0, 48, 70, 2, 33, 0, 231, 248, 166, 170, 33, 4, 197, 9, 179, 233, 87,
  95, 3, 53, 228, 0, 232, 188, 107, 48, 136, 238, 121, 223, 229, 231, 190, 165, 160, 62, 51, 80, 2, 33, 0,
  156, 53, 20, 27, 47, 254, 171, 245, 174, 70, 106, 103, 210, 216, 141, 67, 157, 180, 57, 3, 164, 38, 179, 106,
  111, 178, 167, 18, 116, 178, 54, 211]

/-- RSA with 2048 bits, made with OpenSSL. -/
def rsaDer : Bytes := [
  48, 130, 3, 62, 48, 130, 2, 38, 160, 3, 2, 1, 2, 2, 1, 99, 48, 13, 6, 9, 42, 134, 72, 134,
  247, 13, 1, 1, 11, 5, 0, 48, 53, 49, 11, 48, 9, 6, 3, 85, 4, 6, 19, 2, 67, 90, 49, 14,
  48, 12, 6, 3, 85, 4, 10, 12, 5, 65, 118, 97, 115, 116, 49, 22, 48, 20, 6, 3, 85, 4, 3, 12,
  13, 195, 156, 110, 195, 175, 99, 111, 100, 101, 32, 226, 130, 172, 48, 32, 23, 13, 50, 54, 49, 49, 49, 56,
  48, 57, 52, 52, 53, 49, 90, 24, 15, 50, 48, 53, 57, 48, 57, 50, 54, 48, 57, 52, 52, 53, 49, 90,
  48, 53, 49, 11, 48, 9, 6, 3, 85, 4, 6, 19, 2, 67, 90, 49, 14, 48, 12, 6, 3, 85, 4, 10,
  12, 5, 65, 118, 97, 115, 116, 49, 22, 48, 20, 6, 3, 85, 4, 3, 12, 13, 195, 156, 110, 195, 175, 99,
  111, 100, 101, 32, 226, 130, 172, 48, 130, 1, 34, 48, 13, 6, 9, 42, 134, 72, 134, 247, 13, 1, 1, 1,
  5, 0, 3, 130, 1, 15, 0, 48, 130, 1, 10, 2, 130, 1, 1, 0, 154, 207, 94, 51, 54, 130, 52, 164,
  48, 204, 175, 135, 228, 99, 161, 199, 111, 39, 91, 237, 76, 30, 145, 107, 119, 134, 34, 134, 225, 173, 167, 96,
  248, 197, 255, 250, 244, 196, 150, 198, 179, 168, 123, 110, 112, 231, 113, 28, 206, 212, 37, 131, 41, 107, 180, 91,
  128, 103, 113, 252, 85, 221, 144, 32, 113, 196, 72, 59, 45, 78, 112, 177, 79, 11, 246, 208, 156, 218, 175, 228,
  149, 224, 234, 123, 148, 114, 234, 242, 160, 191, 119, 232, 194, 57, 60, 6, 47, 45, 49, 67, 172, 238, 195, 231,
  81, 120, 190, 197, 87, 49, 194, 113, 93, 48, 153, 228, 67, 141, 31, 46, 196, 160, 33, 197, 215, 57, 43, 94,
  5, 14, 180, 186, 48, 223, 83, 15, 130, 162, 242, 184, 245, 12, 92, 22, 30, 235, 188, 204, 152, 188, 237, 221,
  204, 14, 39, 94, 242, 124, 240, 168, 174, 103, 81, 212, 159, 193, 22, 177, 169, 115, 238, 23, 9, 223, 169, 182,
  174, 112, 19, 158, 85, 193, 54, 26, 108, 214, 14, 50, 155, 60, 32, 37, 28, 223, 128, 88, 20, 103, 235, 123,
  206, 252, 40, 94, 252, 76, 130, 26, 235, 159, 115, 168, 81, 15, 224, 136, 244, 59, 124, 125, 164, 172, 214, 69,
  209, 106, 123, 112, 64, 230, 214, 122, 199, 108, 64, 140, 227, 130, 16, 87, 215, 52, 120, 17, 104, 29, 141, 166,
  107, 72, 199, 139, 4, 175, 247, 197, 2, 3, 1, 0, 1, 163, 87, 48, 85, 48, 12, 6, 3, 85, 29, 19,
  1, 1, 255, 4, 2, 48, 0, 48, 14, 6, 3, 85, 29, 15, 1, 1, 255, 4, 4, 3, 2, 7, 128, 48,
  22, 6, 3, 85, 29, 17, 4, 15, 48, 13, 130, 11, 101, 120, 97, 109, 112, 108, 101, 46, 111, 114, 103, 48,
  29, 6, 3, 85, 29, 14, 4, 22, 4, 20, 88, 98, 114, 190, 135, 238, 216, 73, 174, 79, 186, 201, 15, 137,
  211, 8, 53, 15, 108, 2, 48, 13, 6, 9, 42, 134, 72, 134, 247, 13, 1, 1, 11, 5, 0, 3, 130, 1,
  1, 0, 120, 92, 197, 165, 164, 31, 14, 243, 231, 250, 82, 15, 162, 105, 2, 8, 11, 51, 102, 228, 186, 249,
  225, 142, 68, 209, 151, 147, 44, 96, 120, 118, 32, 100, 199, 4, 128, 131, 147, 119, 211, 233, 107, 14, 16, 203,
  18, 40, 132, 131, 203, 192, 152, 141, 146, 102, 136, 239, 79, 130, 49, 131, 111, 56, 117, 174, 128, 135, 162, 85,
  77, 54, 183, 169, 36, 31, 33, 166, 241, 135, 200, 185, 84, 161, 9, 9, 16, 145, 33, 205, 155, 195, 16, 185,
  233, 180, 38, 203, 229, 253, 71, 142, 171, 51, 161, 69, 17, 228, 67, 100, 122, 195, 87, 27, 161, 134, 193, 69,
  80, 14, 100, 250, 77, 135, 200, 56, 176, 166, 133, 33, 97, 103, 19, 235, 23, 113, 146, 61, 41, 157, 144, 251,
  203, 160, 219, 189, 244, 87, 83, 159, 196, 62, 194, 77, 75, 124, 1, 163, 39, 199, 243, 251, 11, 44, 106, 76,
  157, 111, 159, 112, 99, 171, 233, 217, 182, 165, 82, 226, 238, 2, 82, 43, 199, 149, 15, 169, 97, 123, 50, 179,
  235, 113, 62, 4, 152, 159, 90, 242, 62, 246, 80, 138, 158, 206, 32, 87, 39, 160, 77, 230, 241, 198, 35, 43,
  202, 148, 11, 133, 196, 106, 94, 148, 89, 220, 248, 93, 56, 31, 60, 88, 251, 248, 225, 129, 106, 240, 51, 122,
  107, 145, 221, 68, 93, 190, 249, 205, 234, 149, 81, 128, 150, 208, 169, 28, 211, 33]

/-- The certificate of apkverifier_test.go:844; the length of its signature has a superfluous leading zero. -/
def lead0Der : Bytes := [
  48, 130, 2, 23, 48, 130, 1, 127, 160, 3, 2, 1, 2, 2, 26, 52, 55, 56, 50, 52, 51, 51, 101, 58,
  49, 50, 102, 48, 49, 56, 51, 97, 99, 100, 98, 58, 45, 56, 48, 48, 48, 48, 13, 6, 9, 42, 134, 72,
  134, 247, 13, 1, 1, 5, 5, 0, 48, 56, 49, 11, 48, 9, 6, 3, 85, 4, 6, 19, 2, 85, 83, 49,
  9, 48, 7, 6, 3, 85, 4, 10, 19, 0, 49, 9, 48, 7, 6, 3, 85, 4, 11, 19, 0, 49, 19, 48,
  17, 6, 3, 85, 4, 3, 19, 10, 109, 121, 72, 101, 114, 105, 116, 97, 103, 101, 48, 30, 23, 13, 49, 49,
  48, 51, 50, 56, 49, 50, 48, 56, 49, 55, 90, 23, 13, 51, 54, 48, 51, 50, 57, 49, 49, 48, 56, 49,
  55, 90, 48, 56, 49, 11, 48, 9, 6, 3, 85, 4, 6, 19, 2, 85, 83, 49, 9, 48, 7, 6, 3, 85,
  4, 10, 19, 0, 49, 9, 48, 7, 6, 3, 85, 4, 11, 19, 0, 49, 19, 48, 17, 6, 3, 85, 4, 3,
  19, 10, 109, 121, 72, 101, 114, 105, 116, 97, 103, 101, 48, 129, 159, 48, 13, 6, 9, 42, 134, 72, 134, 247,
  13, 1, 1, 1, 5, 0, 3, 129, 141, 0, 48, 129, 137, 2, 129, 129, 0, 155, 36, 73, 25, 69, 83, 142,
  76, 191, 111, 240, 245, 21, 239, 165, 61, 18, 215, 249, 56, 153, 78, 101, 77, 165, 104, 206, 111, 200, 194, 182,
  245, 10, 229, 21, 159, 109, 237, 123, 52, 234, 140, 194, 119, 253, 172, 86, 70, 169, 239, 83, 76, 222, 160, 215,
  85, 196, 60, 219, 157, 26, 219, 252, 20, 233, 129, 201, 97, 254, 3, 234, 253, 223, 251, 243, 57, 211, 177, 81,
  87, 41, 216, 166, 71, 160, 193, 139, 20, 117, 217, 142, 112, 150, 129, 150, 165, 53, 87, 176, 213, 100, 61, 144,
  139, 224, 12, 23, 244, 132, 233, 217, 207, 234, 145, 9, 10, 30, 240, 214, 97, 114, 48, 195, 19, 10, 245, 234,
  25, 2, 3, 1, 0, 1, 163, 23, 48, 21, 48, 19, 6, 3, 85, 29, 37, 4, 12, 48, 10, 6, 8, 43,
  6, 1, 5, 5, 7, 3, 3, 48, 13, 6, 9, 42, 134, 72, 134, 247, 13, 1, 1, 5, 5, 0, 3, 130,
  0, 129, 0, 141, 141, 136, 208, 205, 177, 237, 3, 5, 77, 58, 40, 105, 223, 159, 119, 168, 248, 222, 3, 0,
  205, 165, 85, 24, 69, 206, 46, 211, 115, 0, 228, 50, 123, 87, 254, 163, 242, 230, 8, 30, 56, 4, 125, 6,
  61, 85, 22, 55, 157, 124, 123, 111, 13, 19, 22, 59, 18, 23, 202, 54, 232, 98, 189, 62, 209, 212, 123, 121,
  197, 131, 11, 160, 192, 177, 32, 139, 30, 107, 225, 66, 25, 26, 243, 40, 188, 73, 250, 119, 23, 63, 82, 161,
  31, 63, 195, 28, 32, 126, 123, 68, 234, 158, 35, 117, 70, 202, 23, 190, 115, 4, 167, 85, 113, 2, 156, 195,
  67, 14, 215, 239, 192, 197, 50, 35, 235, 20, 247]

/-- A signature block without attributes, made with OpenSSL. -/
def ecP7 : Bytes := [
  48, 130, 2, 154, 6, 9, 42, 134, 72, 134, 247, 13, 1, 7, 2, 160, 130, 2, 139, 48, 130, 2, 135, 2,
  1, 1, 49, 15, 48, 13, 6, 9, 96, 134, 72, 1, 101, 3, 4, 2, 1, 5, 0, 48, 11, 6, 9, 42,
  134, 72, 134, 247, 13, 1, 7, 1, 160, 130, 1, 184, 48, 130, 1, 180, 48, 130, 1, 89, 160, 3, 2, 1,
  2, 2, 2, 18, 52, 48, 10, 6, 8, 42, 134, 72, 206, 61, 4, 3, 2, 48, 53, 49, 11, 48, 9, 6,
  3, 85, 4, 6, 19, 2, 67, 90, 49, 14, 48, 12, 6, 3, 85, 4, 10, 12, 5, 65, 118, 97, 115, 116,
  49, 22, 48, 20, 6, 3, 85, 4, 3, 12, 13, 195, 156, 110, 195, 175, 99, 111, 100, 101, 32, 226, 130, 172,
  48, 32, 23, 13, 50, 54, 49, 49, 49, 56, 48, 57, 52, 52, 53, 48, 90, 24, 15, 50, 48, 53, 49, 48,
  55, 49, 48, 48, 57, 52, 52, 53, 48, 90, 48, 53, 49, 11, 48, 9, 6, 3, 85, 4, 6, 19, 2, 67,
  90, 49, 14, 48, 12, 6, 3, 85, 4, 10, 12, 5, 65, 118, 97, 115, 116, 49, 22, 48, 20, 6, 3, 85,
  4, 3, 12, 13, 195, 156, 110, 195, 175, 99, 111, 100, 101, 32, 226, 130, 172, 48, 89, 48, 19, 6, 7, 42,
  134, 72, 206, 61, 2, 1, 6, 8, 42, 134, 72, 206, 61, 3, 1, 7, 3, 66, 0, 4, 120, 86, 248, 249,
  61, 243, 238, 92, 238, 33, 84, 219, 160, 147, 168, 212, 72, 149, 241, 174, 187, 126, 72, 68, 211, 142, 44, 135,
  247, 207, 9, 12, 139, 11, 47, 66, 205, 83, 121, 10, 19, 33, 198, 233, 34, 24, 144, 87, 139, 162, 196, 25,
  233, 196, 176, 73, 149, 235, 114, 121, 50, 152, 229, 116, 163, 87, 48, 85, 48, 12, 6, 3, 85, 29, 19, 1,
  1, 255, 4, 2, 48, 0, 48, 14, 6, 3, 85, 29, 15, 1, 1, 255, 4, 4, 3, 2, 7, 128, 48, 22,
  6, 3, 85, 29, 17, 4, 15, 48, 13, 130, 11, 101, 120, 97, 109, 112, 108, 101, 46, 111, 114, 103, 48, 29,
  6, 3, 85, 29, 14, 4, 22, 4, 20, 123, 236, 211, 71, 199, 239, 68, 215, 10, 170, 58, 47, 157, 61, 50,
  88, 239, 45, 151, 217, 48, 10, 6, 8, 42, 134, 72, 206, 61, 4, 3, 2, 3, 73, 0, 48, 70, 2, 33,
  0, 231, 248, 166, 170, 33, 4, 197, 9, 179, 233, 87, 95, 3, 53, 228, 0, 232, 188, 107, 48, 136, 238, 121,
  223, 229, 231, 190, 165, 160, 62, 51, 80, 2, 33, 0, 156, 53, 20, 27, 47, 254, 171, 245, 174, 70, 106, 103,
  210, 216, 141, 67, 157, 180, 57, 3, 164, 38, 179, 106, 111, 178, 167, 18, 116, 178, 54, 211, 49, 129, 167, 48,
  129, 164, 2, 1, 1, 48, 59, 48, 53, 49, 11, 48, 9, 6, 3, 85, 4, 6, 19, 2, 67, 90, 49, 14,
  48, 12, 6, 3, 85, 4, 10, 12, 5, 65, 118, 97, 115, 116, 49, 22, 48, 20, 6, 3, 85, 4, 3, 12,
  13, 195, 156, 110, 195, 175, 99, 111, 100, 101, 32, 226, 130, 172, 2, 2, 18, 52, 48, 13, 6, 9, 96, 134,
  72, 1, 101, 3, 4, 2, 1, 5, 0, 48, 10, 6, 8, 42, 134, 72, 206, 61, 4, 3, 2, 4, 71, 48,
  69, 2, 33, 0, 234, 103, 25, 145, 74, 255, 238, 65, 135, 196, 227, 255, 129, 104, 114, 175, 158, 230, 63, 179,
  131, 176, 32, 103, 237, 215, 78, 195, 132, 117, 18, 188, 2, 32, 23, 195, 159, 12, 26, 78, 59, 242, 175, 191,
  157, 206, 165, 40, 207, 6, 29, 197, 40, 104, 31, 108, 149, 124, 136, 40, 82, 211, 208, 23, 219, 210]

/-- A signature block with attributes, made with OpenSSL. -/
def ecaP7 : Bytes := [
  48, 130, 3, 131, 6, 9, 42, 134, 72, 134, 247, 13, 1, 7, 2, 160, 130, 3, 116, 48, 130, 3, 112, 2,
  1, 1, 49, 15, 48, 13, 6, 9, 96, 134, 72, 1, 101, 3, 4, 2, 1, 5, 0, 48, 11, 6, 9, 42,
  134, 72, 134, 247, 13, 1, 7, 1, 160, 130, 1, 184, 48, 130, 1, 180, 48, 130, 1, 89, 160, 3, 2, 1,
  2, 2, 2, 18, 52, 48, 10, 6, 8, 42, 134, 72, 206, 61, 4, 3, 2, 48, 53, 49, 11, 48, 9, 6,
  3, 85, 4, 6, 19, 2, 67, 90, 49, 14, 48, 12, 6, 3, 85, 4, 10, 12, 5, 65, 118, 97, 115, 116,
  49, 22, 48, 20, 6, 3, 85, 4, 3, 12, 13, 195, 156, 110, 195, 175, 99, 111, 100, 101, 32, 226, 130, 172,
  48, 32, 23, 13, 50, 54, 49, 49, 49, 56, 48, 57, 52, 52, 53, 48, 90, 24, 15, 50, 48, 53, 49, 48,
  55, 49, 48, 48, 57, 52, 52, 53, 48, 90, 48, 53, 49, 11, 48, 9, 6, 3, 85, 4, 6, 19, 2, 67,
  90, 49, 14, 48, 12, 6, 3, 85, 4, 10, 12, 5, 65, 118, 97, 115, 116, 49, 22, 48, 20, 6, 3, 85,
  4, 3, 12, 13, 195, 156, 110, 195, 175, 99, 111, 100, 101, 32, 226, 130, 172, 48, 89, 48, 19, 6, 7, 42,
  134, 72, 206, 61, 2, 1, 6, 8, 42, 134, 72, 206, 61, 3, 1, 7, 3, 66, 0, 4, 120, 86, 248, 249,
  61, 243, 238, 92, 238, 33, 84, 219, 160, 147, 168, 212, 72, 149, 241, 174, 187, 126, 72, 68, 211, 142, 44, 135,
  247, 207, 9, 12, 139, 11, 47, 66, 205, 83, 121, 10, 19, 33, 198, 233, 34, 24, 144, 87, 139, 162, 196, 25,
  233, 196, 176, 73, 149, 235, 114, 121, 50, 152, 229, 116, 163, 87, 48, 85, 48, 12, 6, 3, 85, 29, 19, 1,
  1, 255, 4, 2, 48, 0, 48, 14, 6, 3, 85, 29, 15, 1, 1, 255, 4, 4, 3, 2, 7, 128, 48, 22,
  6, 3, 85, 29, 17, 4, 15, 48, 13, 130, 11, 101, 120, 97, 109, 112, 108, 101, 46, 111, 114, 103, 48, 29,
  6, 3, 85, 29, 14, 4, 22, 4, 20, 123, 236, 211, 71, 199, 239, 68, 215, 10, 170, 58, 47, 157, 61, 50,
  88, 239, 45, 151, 217, 48, 10, 6, 8, 42, 134, 72, 206, 61, 4, 3, 2, 3, 73, 0, 48, 70, 2, 33,
  0, 231, 248, 166, 170, 33, 4, 197, 9, 179, 233, 87, 95, 3, 53, 228, 0, 232, 188, 107, 48, 136, 238, 121,
  223, 229, 231, 190, 165, 160, 62, 51, 80, 2, 33, 0, 156, 53, 20, 27, 47, 254, 171, 245, 174, 70, 106, 103,
  210, 216, 141, 67, 157, 180, 57, 3, 164, 38, 179, 106, 111, 178, 167, 18, 116, 178, 54, 211, 49, 130, 1, 143,
  48, 130, 1, 139, 2, 1, 1, 48, 59, 48, 53, 49, 11, 48, 9, 6, 3, 85, 4, 6, 19, 2, 67, 90,
  49, 14, 48, 12, 6, 3, 85, 4, 10, 12, 5, 65, 118, 97, 115, 116, 49, 22, 48, 20, 6, 3, 85, 4,
  3, 12, 13, 195, 156, 110, 195, 175, 99, 111, 100, 101, 32, 226, 130, 172, 2, 2, 18, 52, 48, 13, 6, 9,
  96, 134, 72, 1, 101, 3, 4, 2, 1, 5, 0, 160, 129, 228, 48, 24, 6, 9, 42, 134, 72, 134, 247, 13,
  1, 9, 3, 49, 11, 6, 9, 42, 134, 72, 134, 247, 13, 1, 7, 1, 48, 28, 6, 9, 42, 134, 72, 134,
  247, 13, 1, 9, 5, 49, 15, 23, 13, 50, 54, 49, 49, 49, 56, 48, 57, 52, 52, 53, 49, 90, 48, 47,
  6, 9, 42, 134, 72, 134, 247, 13, 1, 9, 4, 49, 34, 4, 32, 140, 104, 244, 113, 13, 219, 128, 223, 178,
  61, 50, 133, 210, 183, 20, 229, 211, 59, 84, 248, 207, 235, 130, 175, 55, 214, 139, 112, 210, 94, 233, 166, 48,
  121, 6, 9, 42, 134, 72, 134, 247, 13, 1, 9, 15, 49, 108, 48, 106, 48, 11, 6, 9, 96, 134, 72, 1,
  101, 3, 4, 1, 42, 48, 11, 6, 9, 96, 134, 72, 1, 101, 3, 4, 1, 22, 48, 11, 6, 9, 96, 134,
  72, 1, 101, 3, 4, 1, 2, 48, 10, 6, 8, 42, 134, 72, 134, 247, 13, 3, 7, 48, 14, 6, 8, 42,
  134, 72, 134, 247, 13, 3, 2, 2, 2, 0, 128, 48, 13, 6, 8, 42, 134, 72, 134, 247, 13, 3, 2, 2,
  1, 64, 48, 7, 6, 5, 43, 14, 3, 2, 7, 48, 13, 6, 8, 42, 134, 72, 134, 247, 13, 3, 2, 2,
  1, 40, 48, 10, 6, 8, 42, 134, 72, 206, 61, 4, 3, 2, 4, 71, 48, 69, 2, 33, 0, 159, 231, 188,
  125, 136, 206, 221, 232, 97, 2, 243, 222, 18, 220, 31, 170, 101, 174, 54, 21, 145, 5, 138, 172, 225, 235, 220,
  146, 252, 6, 161, 61, 2, 32, 17, 114, 84, 153, 176, 162, 96, 48, 87, 155, 102, 203, 60, 4, 12, 150, 16,
  250, 186, 165, 249, 130, 170, 143, 86, 6, 69, 163, 204, 217, 202, 4]

/-- META-INF/CERT.RSA of testdata/asn1_unprintable.apk. -/
def unprintableP7 : Bytes := [
  48, 130, 5, 125, 6, 9, 42, 134, 72, 134, 247, 13, 1, 7, 2, 160, 130, 5, 110, 48, 130, 5, 106, 2,
  1, 1, 49, 15, 48, 13, 6, 9, 96, 134, 72, 1, 101, 3, 4, 2, 1, 5, 0, 48, 11, 6, 9, 42,
  134, 72, 134, 247, 13, 1, 7, 1, 160, 130, 3, 142, 48, 130, 3, 138, 48, 130, 2, 114, 160, 3, 2, 1,
  2, 2, 8, 131, 48, 149, 80, 180, 126, 5, 131, 48, 13, 6, 9, 42, 134, 72, 134, 247, 13, 1, 1, 11,
  5, 0, 48, 123, 49, 11, 48, 9, 6, 3, 85, 4, 6, 19, 2, 67, 78, 49, 18, 48, 16, 6, 3, 85,
  4, 7, 19, 9, 83, 104, 101, 110, 103, 122, 104, 101, 110, 49, 18, 48, 16, 6, 3, 85, 4, 8, 19, 9,
  71, 117, 97, 110, 103, 100, 111, 110, 103, 49, 15, 48, 13, 6, 3, 85, 4, 10, 19, 6, 72, 117, 97, 119,
  101, 105, 49, 51, 48, 49, 6, 3, 85, 4, 3, 19, 42, 65, 110, 100, 114, 111, 105, 100, 84, 101, 97, 109,
  47, 101, 109, 97, 105, 108, 65, 100, 100, 114, 101, 115, 115, 61, 109, 111, 98, 105, 108, 101, 64, 104, 117, 97,
  119, 101, 105, 46, 99, 111, 109, 48, 30, 23, 13, 49, 57, 48, 49, 48, 49, 48, 48, 48, 48, 48, 48, 90,
  23, 13, 52, 51, 49, 50, 51, 49, 48, 48, 48, 48, 48, 48, 90, 48, 123, 49, 11, 48, 9, 6, 3, 85,
  4, 6, 19, 2, 67, 78, 49, 18, 48, 16, 6, 3, 85, 4, 7, 19, 9, 83, 104, 101, 110, 103, 122, 104,
  101, 110, 49, 18, 48, 16, 6, 3, 85, 4, 8, 19, 9, 71, 117, 97, 110, 103, 100, 111, 110, 103, 49, 15,
  48, 13, 6, 3, 85, 4, 10, 19, 6, 72, 117, 97, 119, 101, 105, 49, 51, 48, 49, 6, 3, 85, 4, 3,
  19, 42, 65, 110, 100, 114, 111, 105, 100, 84, 101, 97, 109, 47, 101, 109, 97, 105, 108, 65, 100, 100, 114, 101,
  115, 115, 61, 109, 111, 98, 105, 108, 101, 64, 104, 117, 97, 119, 101, 105, 46, 99, 111, 109, 48, 130, 1, 34,
  48, 13, 6, 9, 42, 134, 72, 134, 247, 13, 1, 1, 1, 5, 0, 3, 130, 1, 15, 0, 48, 130, 1, 10,
  2, 130, 1, 1, 0, 212, 68, 148, 249, 137, 43, 210, 51, 50, 194, 36, 178, 187, 87, 5, 241, 123, 135, 80,
  22, 163, 145, 215, 130, 20, 211, 89, 90, 18, 17, 158, 140, 81, 56, 234, 22, 128, 221, 116, 148, 179, 181, 139,
  43, 206, 72, 238, 18, 4, 157, 28, 229, 125, 247, 237, 234, 40, 5, 130, 116, 200, 76, 135, 153, 164, 124, 124,
  19, 241, 190, 144, 156, 176, 107, 25, 231, 243, 124, 125, 176, 51, 20, 84, 209, 222, 47, 224, 65, 194, 212, 168,
  177, 95, 141, 159, 25, 209, 110, 55, 6, 173, 98, 193, 85, 122, 116, 215, 164, 144, 166, 124, 206, 142, 158, 116,
  240, 12, 116, 28, 218, 27, 22, 159, 56, 224, 85, 236, 80, 126, 45, 173, 50, 48, 197, 142, 211, 152, 84, 167,
  219, 146, 146, 78, 39, 242, 230, 222, 53, 38, 221, 47, 159, 253, 21, 255, 85, 142, 87, 21, 164, 139, 97, 134,
  248, 82, 2, 139, 200, 229, 20, 170, 135, 44, 98, 154, 115, 86, 57, 73, 150, 207, 37, 80, 103, 9, 195, 219,
  221, 224, 35, 230, 131, 101, 123, 201, 251, 159, 109, 213, 49, 146, 193, 141, 229, 133, 25, 125, 229, 97, 190, 98,
  87, 162, 133, 204, 24, 59, 113, 39, 153, 231, 30, 238, 244, 148, 113, 198, 201, 71, 61, 26, 156, 136, 151, 1,
  20, 229, 84, 147, 235, 44, 116, 112, 69, 219, 164, 227, 79, 15, 253, 96, 39, 42, 37, 66, 31, 2, 3, 1,
  0, 1, 163, 18, 48, 16, 48, 14, 6, 3, 85, 29, 15, 1, 1, 255, 4, 4, 3, 2, 7, 128, 48, 13,
  6, 9, 42, 134, 72, 134, 247, 13, 1, 1, 11, 5, 0, 3, 130, 1, 1, 0, 25, 24, 70, 240, 220, 134,
  48, 166, 221, 65, 219, 136, 236, 230, 107, 42, 171, 149, 121, 115, 16, 152, 50, 38, 190, 196, 244, 64, 173, 136,
  140, 97, 210, 208, 227, 60, 129, 193, 189, 26, 213, 182, 195, 108, 149, 108, 149, 45, 5, 78, 147, 184, 189, 86,
  134, 22, 1, 44, 43, 130, 69, 44, 73, 86, 236, 162, 90, 178, 133, 186, 185, 144, 35, 161, 21, 218, 79, 185,
  23, 15, 165, 35, 45, 88, 192, 33, 231, 113, 144, 120, 237, 115, 228, 8, 245, 40, 110, 73, 2, 159, 54, 115,
  81, 157, 155, 23, 50, 0, 155, 202, 110, 60, 242, 217, 77, 187, 172, 255, 212, 127, 20, 8, 199, 212, 215, 3,
  235, 220, 188, 123, 176, 30, 211, 170, 33, 79, 177, 33, 68, 54, 111, 12, 207, 160, 243, 121, 139, 189, 8, 200,
  151, 139, 69, 29, 96, 34, 179, 39, 31, 128, 151, 64, 74, 124, 241, 98, 182, 75, 99, 119, 194, 105, 182, 197,
  1, 121, 215, 71, 233, 171, 224, 21, 154, 158, 248, 103, 252, 180, 26, 189, 199, 13, 159, 106, 25, 140, 93, 142,
  160, 162, 196, 84, 203, 93, 67, 107, 30, 100, 244, 52, 34, 113, 33, 98, 27, 68, 162, 37, 132, 8, 74, 159,
  249, 159, 201, 209, 245, 242, 161, 168, 132, 61, 219, 100, 213, 157, 27, 143, 185, 24, 15, 17, 213, 27, 175, 192,
  104, 169, 250, 32, 52, 114, 224, 217, 239, 146, 49, 130, 1, 179, 48, 130, 1, 175, 2, 1, 1, 48, 129, 135,
  48, 123, 49, 11, 48, 9, 6, 3, 85, 4, 6, 19, 2, 67, 78, 49, 18, 48, 16, 6, 3, 85, 4, 7,
  19, 9, 83, 104, 101, 110, 103, 122, 104, 101, 110, 49, 18, 48, 16, 6, 3, 85, 4, 8, 19, 9, 71, 117,
  97, 110, 103, 100, 111, 110, 103, 49, 15, 48, 13, 6, 3, 85, 4, 10, 19, 6, 72, 117, 97, 119, 101, 105,
  49, 51, 48, 49, 6, 3, 85, 4, 3, 19, 42, 65, 110, 100, 114, 111, 105, 100, 84, 101, 97, 109, 47, 101,
  109, 97, 105, 108, 65, 100, 100, 114, 101, 115, 115, 61, 109, 111, 98, 105, 108, 101, 64, 104, 117, 97, 119, 101,
  105, 46, 99, 111, 109, 2, 8, 131, 48, 149, 80, 180, 126, 5, 131, 48, 13, 6, 9, 96, 134, 72, 1, 101,
  3, 4, 2, 1, 5, 0, 48, 13, 6, 9, 42, 134, 72, 134, 247, 13, 1, 1, 1, 5, 0, 4, 130, 1,
  0, 12, 97, 201, 178, 85, 209, 148, 186, 173, 180, 114, 191, 133, 44, 48, 42, 57, 134, 187, 153, 151, 139, 247,
  204, 13, 36, 217, 14, 126, 59, 76, 87, 130, 184, 141, 193, 77, 226, 245, 180, 254, 96, 158, 204, 133, 240, 153,
  140, 155, 42, 130, 140, 18, 161, 195, 110, 138, 139, 42, 156, 187, 223, 218, 168, 2, 218, 247, 126, 143, 29, 74,
  113, 201, 108, 42, 154, 141, 46, 117, 13, 21, 94, 112, 61, 113, 241, 49, 107, 38, 32, 190, 5, 231, 50, 129,
  201, 240, 152, 5, 86, 129, 73, 79, 170, 237, 152, 247, 178, 65, 36, 243, 214, 94, 82, 17, 242, 43, 71, 90,
  44, 218, 218, 252, 147, 75, 135, 209, 32, 141, 6, 197, 54, 168, 214, 55, 181, 40, 222, 141, 241, 0, 169, 201,
  148, 125, 49, 224, 240, 210, 248, 246, 199, 231, 17, 111, 193, 202, 46, 165, 67, 140, 4, 248, 45, 141, 166, 44,
  143, 62, 31, 234, 163, 19, 57, 13, 167, 129, 190, 202, 176, 238, 39, 50, 98, 238, 151, 203, 73, 72, 159, 187,
  217, 18, 76, 39, 41, 85, 246, 172, 145, 132, 5, 163, 145, 250, 229, 28, 12, 105, 81, 253, 14, 127, 210, 170,
  210, 222, 169, 18, 187, 37, 172, 220, 211, 93, 221, 60, 72, 96, 128, 227, 14, 150, 73, 195, 40, 193, 198, 112,
  141, 60, 27, 199, 67, 116, 112, 235, 230, 175, 5, 64, 114, 169, 253, 165, 39]

/-- The characters of the names. -/
def unicode : Bytes := Spec.utf8 ['Ü', 'n', 'ï', 'c', 'o', 'd', 'e', ' ', '€']

set_option maxRecDepth 20000 in
theorem ec_accepted : ∃ cert, CertificateIs (goCertEnv utc) ecDer cert (.ecdsa [1,2,840,10045,3,1,7]
      54431209030208029065697735991108212342775995411309262071644247876772884842764
      62891247453844727914319835248426560949503672764683901934928860911224632173940) ∧
    cert.serial = 0x1234 ∧ cert.notBefore = 1794995090 ∧ cert.notAfter = 2572595090 ∧ cert.subject.commonName = unicode ∧
    cert.issuer.commonName = unicode ∧ cert.sigAlg = 10 ∧ cert.critExt = false := of_check509 (by decide +kernel)

set_option maxRecDepth 20000 in
theorem rsa_accepted : ∃ cert, CertificateIs (goCertEnv utc) rsaDer cert (.rsa
      0x9acf5e33368234a430ccaf87e463a1c76f275bed4c1e916b77862286e1ada760f8c5fffaf4c496c6b3a87b6e70e7711cced42583296bb45b806771fc55dd902071c4483b2d4e70b14f0bf6d09cdaafe495e0ea7b9472eaf2a0bf77e8c2393c062f2d3143aceec3e75178bec55731c2715d3099e4438d1f2ec4a021c5d7392b5e050eb4ba30df530f82a2f2b8f50c5c161eebbccc98bcedddcc0e275ef27cf0a8ae6751d49fc116b1a973ee1709dfa9b6ae70139e55c1361a6cd60e329b3c20251cdf80581467eb7bcefc285efc4c821aeb9f73a8510fe088f43b7c7da4acd645d16a7b7040e6d67ac76c408ce3821057d7347811681d8da66b48c78b04aff7c5 65537) ∧
    cert.serial = 99 ∧ cert.notBefore = 1794995091 ∧ cert.notAfter = 2831795091 ∧ cert.subject.commonName = unicode ∧
    cert.issuer.commonName = unicode ∧ cert.sigAlg = 4 ∧ cert.critExt = false := of_check509 (by decide +kernel)

set_option maxRecDepth 20000 in
/-- The certificate that the test of the project requires to be accepted. -/
theorem leading_zeros_accepted : ∃ cert, CertificateIs (goCertEnv utc) lead0Der cert (.rsa
      0x9b24491945538e4cbf6ff0f515efa53d12d7f938994e654da568ce6fc8c2b6f50ae5159f6ded7b34ea8cc277fdac5646a9ef534cdea0d755c43cdb9d1adbfc14e981c961fe03eafddffbf339d3b1515729d8a647a0c18b1475d98e70968196a53557b0d5643d908be00c17f484e9d9cfea91090a1ef0d6617230c3130af5ea19 65537) ∧
    cert.serial = 0x34373832343333653a31326630313833616364623a2d38303030 ∧ cert.notBefore = 1301314097 ∧ cert.notAfter = 2090401697 ∧
    cert.subject.commonName = (b!"myHeritage") ∧ cert.issuer.commonName = (b!"myHeritage") ∧ cert.sigAlg = 3 ∧ cert.critExt = false :=
  of_check509 (by decide +kernel)

/-- The parser of signature blocks. -/
def env : Env1 := concreteEnv1 (goCertEnv utc) (Toy.env1 [])

/-- A signature block that is parsed, and satisfies `f`. -/
def checkP7 (b : Bytes) (f : P7 → Bool) : Bool :=
  match p7Parse env b with
  | .ok (some p) => f p
  | _ => false

theorem of_checkP7 {b : Bytes} {f : P7 → Bool} (h : checkP7 b f = true) : ∃ p7, p7Parse env b = .ok (some p7) ∧ f p7 = true := by
  unfold checkP7 at h
  cases e : p7Parse env b with
  | error p => rw [e] at h; cases h
  | ok r =>
    cases r with
    | none => rw [e] at h; cases h
    | some p => rw [e] at h; exact ⟨p, rfl, h⟩

set_option maxRecDepth 20000 in
/-- One certificate, which is the one above; a signer without attributes, SHA-256 and ECDSA. -/
theorem ec_block : ∃ p7, p7Parse env ecP7 = .ok (some p7) ∧ (decide (p7.certs.map (·.raw) = [ecDer]) &&
    decide (p7.signers.map (fun s => (s.serial, s.digestAlg, s.encAlg, s.attrs.length, s.encDigest.length)) =
      [(0x1234, [2,16,840,1,101,3,4,2,1], [1,2,840,10045,4,3,2], 0, 71)]) && decide (p7.contentType = [1,2,840,113549,1,7,1])) = true :=
  of_checkP7 (by decide +kernel)

set_option maxRecDepth 20000 in
/-- The same with attributes: content type, signing time, message digest, capabilities. What is marshalled for the verification of the
    signature is the attributes in the file, as a SET (this is what OpenSSL has signed). -/
theorem eca_block : ∃ p7, p7Parse env ecaP7 = .ok (some p7) ∧ (decide (p7.certs.map (·.raw) = [ecDer]) &&
    decide (p7.signers.map (fun s => s.attrs.map (·.type)) =
      [[[1,2,840,113549,1,9,3], [1,2,840,113549,1,9,5], [1,2,840,113549,1,9,4], [1,2,840,113549,1,9,15]]]) &&
    decide (p7.signers.map (fun s => env.marshalAttrs s.attrs) = [some (0x31 :: (ecaP7.drop 588).take 230)])) = true :=
  of_checkP7 (by decide +kernel)

set_option maxRecDepth 20000 in
/-- The signature block with a PrintableString that is none, which must be parsed all the same. -/
theorem unprintable_block : ∃ p7, p7Parse env unprintableP7 = .ok (some p7) ∧
    (decide (p7.certs.map (fun c => (c.serial, c.notBefore, c.notAfter, c.subject.commonName)) =
      [(-0x7ccf6aaf4b81fa7d, 1546300800, 2335132800, b!"AndroidTeam/emailAddress=mobile@huawei.com")]) &&
    decide (p7.signers.map (fun s => (s.serial, s.digestAlg, s.encAlg, s.attrs.length, s.encDigest.length)) =
      [(-0x7ccf6aaf4b81fa7d, [2,16,840,1,101,3,4,2,1], [1,2,840,113549,1,1,1], 0, 256)])) = true :=
  of_checkP7 (by decide +kernel)

end Apk.Real
