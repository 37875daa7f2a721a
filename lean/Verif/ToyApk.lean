import Verif.Toy
import Verif.Model.Block
import Verif.Spec.Verdict
/-! # Toy APKs

Small signed APKs for the concrete environment `Toy.env`, used only to show that hypotheses of theorems are satisfiable
and to exhibit witnesses. -/
namespace Apk.Toy

/-- A record: algorithm id and length-prefixed body. -/
def algRec (alg : Nat) (x : Bytes) : Bytes := leBytes 4 alg ++ lp x

/-- A v2 signer with one RSA PKCS#1 SHA-256 signature by key `k`. -/
def v2signer (k digest : Bytes) (attrs : List Bytes) : Bytes :=
  let signedData := lp (lpSeq [algRec 0x0103 digest]) ++ lp (lpSeq [0xC0 :: k]) ++ lp (lpSeq attrs)
  lp signedData ++ lp (lpSeq [algRec 0x0103 (sign k signedData)]) ++ lp k

/-- A v3 signer with one RSA PKCS#1 SHA-256 signature by key `k`; `smin smax` are the signed SDK versions. -/
def v3signer (k digest : Bytes) (mn mx smin smax : Nat) (attrs : List Bytes) : Bytes :=
  let signedData := lp (lpSeq [algRec 0x0103 digest]) ++ lp (lpSeq [0xC0 :: k]) ++ leBytes 4 smin ++ leBytes 4 smax ++ lp (lpSeq attrs)
  lp signedData ++ leBytes 4 mn ++ leBytes 4 mx ++ lp (lpSeq [algRec 0x0103 (sign k signedData)]) ++ lp k

/-- A scheme block: a list of signers. -/
def block (signers : List Bytes) : Bytes := lp (lpSeq signers)

/-- Bytes before the signing block. -/
def head : Bytes := [0x50, 0x4b, 3, 4, 10, 20, 30]
/-- Central directory. -/
def cdir : Bytes := [0x50, 0x4b, 1, 2, 7]

/-- The APK with the given pairs in its signing block. -/
def apkOf (ps : List (Nat × Bytes)) : Bytes :=
  head ++ sigBlock (encPairs ps) ++ cdir ++ eocd cdir.length (head ++ sigBlock (encPairs ps)).length

/-- The content digest of that APK; it does not depend on the signing block. -/
def digest : Bytes := chunkedDigest env.sha256 (signedSections head cdir (eocd cdir.length 0))

/-- Keys. -/
def k1 : Bytes := [1, 11]
/-- Keys. -/
def k2 : Bytes := [1, 22]

/-- A ZIP reader without entries. -/
def noZip : Zip := ⟨[], fun _ => none⟩

/-- The toy certificate of a key. -/
def certOf (k : Bytes) : Cert := { raw := 0xC0 :: k, spki := k, key := ⟨.rsa, 0, k⟩ }

/-- Verification of the toy APK with these pairs. -/
def run (ps : List (Nat × Bytes)) (minSdk maxSdk : Int) : Go Outcome := verifySigningBlock env noZip (apkOf ps) minSdk maxSdk

/-- Evaluate a check on the outcome of a run. -/
def check (x : Go Outcome) (P : Outcome → Bool) : Bool :=
  match x with
  | .ok o => P o
  | .error _ => false

theorem of_check {x : Go Outcome} {P : Outcome → Bool} (h : check x P = true) : ∃ out, x = .ok out ∧ P out = true := by
  cases x with
  | error e => cases h
  | ok o => exact ⟨o, rfl, h⟩

/-- Scheme, certificates and error of an outcome. -/
def summary (o : Outcome) : Option (Nat × List (List Cert) × List E) × Option E :=
  (o.res.map (fun r => (r.core.schemeId, r.core.certs, r.core.errors)), o.err)

/-- Pairs of an APK signed with v2. -/
def psV2 : List (Nat × Bytes) := [(idV2, block [v2signer k1 digest []])]
/-- Pairs of an APK signed with v3 (and v2). -/
def psV3 : List (Nat × Bytes) :=
  [(idV3, block [v3signer k1 digest 28 0x7fffffff 28 0x7fffffff []]), (idV2, block [v2signer k1 digest []])]
/-- Pairs of an APK signed with v3.1 by `k2` and with v3 by `k1`. -/
def psV31 : List (Nat × Bytes) :=
  [(idV31, block [v3signer k2 digest 33 0x7fffffff 33 0x7fffffff []]), (idV3, block [v3signer k1 digest 28 32 28 32 []])]

theorem runV2 : ∃ out, run psV2 24 35 = .ok out ∧ summary out = (some (2, [[certOf k1]], []), none) := by
  obtain ⟨out, h1, h2⟩ := of_check (x := run psV2 24 35) (P := fun o => decide (summary o = (some (2, [[certOf k1]], []), none))) (by decide +kernel)
  exact ⟨out, h1, of_decide_eq_true h2⟩

theorem runV3 : ∃ out, run psV3 24 35 = .ok out ∧ summary out = (some (3, [[certOf k1]], []), none) := by
  obtain ⟨out, h1, h2⟩ := of_check (x := run psV3 24 35) (P := fun o => decide (summary o = (some (3, [[certOf k1]], []), none))) (by decide +kernel)
  exact ⟨out, h1, of_decide_eq_true h2⟩

theorem runV31 : ∃ out, run psV31 24 35 = .ok out ∧ summary out = (some (31, [[certOf k2]], []), none) := by
  obtain ⟨out, h1, h2⟩ := of_check (x := run psV31 24 35) (P := fun o => decide (summary o = (some (31, [[certOf k2]], []), none))) (by decide +kernel)
  exact ⟨out, h1, of_decide_eq_true h2⟩

end Apk.Toy
