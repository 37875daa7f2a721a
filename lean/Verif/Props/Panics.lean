import Verif.Proofs.Panic
import Verif.ToyApk
/-! # C26: panics

`Except.error` of the type `Go` is a run-time panic of the Go program.  C26 ("never panics") is false of the code; the
theorems say exactly which inputs can be responsible and exhibit panicking files. -/
namespace Apk

/-- A signature check panics exactly when the key or the signature value does not fit the declared algorithm. -/
theorem C26_check_panics_iff (env : Env) (key : PubKey) (algo : Nat) (data sig : Bytes) :
    (∃ p, verifySignature env key algo data sig = .error p) ↔ Misfit env key algo sig :=
  verifySignature_panic_iff env key algo data sig

/-- Verification of the signing block panics only if the file asks for a signature check with a key or signature that
    does not fit the algorithm, or contains a frosting block with a negative number.  (Partial: C26 asks for no panic at
    all, which the witnesses below refute.) -/
theorem C26_panic_needs_misfit_partial (env : Env) (zip : Zip) (file : Bytes) (minSdk maxSdk : Int) (p : Panic)
    (h : verifySigningBlock env zip file minSdk maxSdk = .error p) : HasMisfit env file ∨ HasNegativeIndex file := by
  have := tr_verifySigningBlock (env := env) (file := file) (zip := zip) (mn := minSdk) (m := maxSdk)
  rw [h] at this
  exact this

/-- The same for the extraction of certificates. -/
theorem C26_extract_panic_needs_misfit_partial (env : Env) (file : Bytes) (maxSdk : Int) (p : Panic)
    (h : extractCertsReader env file maxSdk = .error p) : HasMisfit env file ∨ HasNegativeIndex file := by
  have := tr_extractCertsReader (env := env) (file := file) (m := maxSdk)
  rw [h] at this
  exact this

/-- So verification returns normally on every file without such a check and without such a block. -/
theorem C26_no_panic_partial (env : Env) (zip : Zip) (file : Bytes) (minSdk maxSdk : Int)
    (h1 : ∀ key algo sig, SigUse env file key algo sig → ¬ Misfit env key algo sig) (h2 : ¬ HasNegativeIndex file) :
    ∃ o, verifySigningBlock env zip file minSdk maxSdk = .ok o := by
  cases h : verifySigningBlock env zip file minSdk maxSdk with
  | ok o => exact ⟨o, rfl⟩
  | error p =>
    rcases C26_panic_needs_misfit_partial env zip file minSdk maxSdk p h with ⟨key, algo, sig, h3, h4⟩ | h3
    · exact absurd h4 (h1 key algo sig h3)
    · exact absurd h3 h2

namespace Toy

/-- A v2 signer with the given key, algorithm and signature value. -/
def rawSigner (k : Bytes) (alg : Nat) (sig : Bytes) : Bytes :=
  lp (lp (lpSeq [algRec alg digest]) ++ lp (lpSeq [0xC0 :: k]) ++ lp []) ++ lp (lpSeq [algRec alg sig]) ++ lp k

/-- The panic of a run, if any. -/
def panicOf (x : Go Outcome) : Option Panic :=
  match x with
  | .error p => some p
  | .ok _ => none

theorem of_panic {x : Go Outcome} {p : Panic} (h : panicOf x = some p) : x = .error p := by
  cases x with
  | error q => simp only [panicOf, Option.some.injEq] at h; rw [h]
  | ok o => cases h

/-- An RSA algorithm with an elliptic curve key. -/
def psRsaEc : List (Nat × Bytes) := [(idV2, block [rawSigner [2, 5] 0x0103 [9, 9]])]
/-- An ECDSA signature with one integer. -/
def psOneInt : List (Nat × Bytes) := [(idV2, block [rawSigner [2, 5] 0x0201 [9]])]
/-- A DSA key whose Q has 264 bits. -/
def psLongQ : List (Nat × Bytes) := [(idV2, block [rawSigner [3, 33] 0x0301 [9, 9]])]
/-- A frosting block whose key index is the varint `80 80 80 80 08`, i.e. -2^31. -/
def psFrost : List (Nat × Bytes) :=
  let key := [38, 0, 0x80, 0x80, 0x80, 0x80, 8] ++ List.replicate 32 7
  let rest := [1, 0xAA] ++ [UInt8.ofNat key.length] ++ key
  [(0x2146444e, [UInt8.ofNat rest.length] ++ rest ++ [2, 1, 0x55]), (idV2, block [v2signer k1 digest []])]

end Toy

/-- C26 is false: these four well-formed APKs make the verifier panic (type assertion, index and slice out of range). -/
theorem C26_witnesses :
    Toy.run Toy.psRsaEc 24 27 = .error .typeAssertion ∧ Toy.run Toy.psOneInt 24 27 = .error .indexOutOfRange ∧
    Toy.run Toy.psLongQ 24 27 = .error .sliceOutOfRange ∧ Toy.run Toy.psFrost 24 27 = .error .indexOutOfRange :=
  ⟨Toy.of_panic (by decide +kernel), Toy.of_panic (by decide +kernel), Toy.of_panic (by decide +kernel),
    Toy.of_panic (by decide +kernel)⟩

/-- An environment in which every key is an RSA key and no signature value is a sequence of integers. -/
def Toy.rsaOnly : Env :=
  { Toy.env with
    asn1Ints := fun _ => none
    parsePKIX := fun b => some ⟨.rsa, 0, b⟩
    parseCertStd := fun b => some { raw := b, spki := b.drop 1, key := ⟨.rsa, 0, b.drop 1⟩ }
    parseCertAndr := fun b => some { raw := b, spki := b.drop 1, key := ⟨.rsa, 0, b.drop 1⟩ } }

/-- Search for four bytes. -/
def Toy.noFrost : Bytes → Bool
  | [] => true
  | b :: bs => decide ((b :: bs).take 4 ≠ [0x4e, 0x44, 0x46, 0x21]) && Toy.noFrost bs

theorem Toy.noFrost_sound {b v : Bytes} (h : Toy.noFrost b = true) : ¬ (leBytes 4 0x2146444e ++ v) <:+: b := by
  rintro ⟨s, t, rfl⟩
  induction s with
  | nil => revert h; simp [leBytes, Toy.noFrost]
  | cons a s ih =>
    simp only [List.cons_append, Toy.noFrost, Bool.and_eq_true] at h
    exact ih h.2

/-- The hypotheses of `C26_no_panic_partial` are met by a signed APK. -/
example : (∀ key algo sig, SigUse Toy.rsaOnly (Toy.apkOf Toy.psV2) key algo sig → ¬ Misfit Toy.rsaOnly key algo sig) ∧
    ¬ HasNegativeIndex (Toy.apkOf Toy.psV2) := by
  constructor
  · intro key algo sig h hm
    have hk : key.kind = .rsa := by
      cases h with
      | signer _ _ hk => cases hk; rfl
      | lineage _ hc => rcases hc with hc | hc <;> (cases hc; rfl)
      | stamp _ hc => cases hc; rfl
    cases hm with
    | rsaKey _ h => exact h hk
    | ecKey _ h => cases h
    | dsaKey _ h => cases h
    | fewInts _ h => cases h
    | longQ _ h => cases h
  · rintro ⟨v, w, h, _⟩
    exact Toy.noFrost_sound (by decide +kernel) h

end Apk
