import Verif.Spec.PrivKey
import Verif.Proofs.X509Exact
/-! # Lemmas about private keys -/
namespace Apk
open Spec

theorem curveOrder_iff {oid : List Nat} {n : Nat} : curveOrder oid = some n ↔ ∃ size, CurveOrder oid n size := by
  constructor
  · intro h
    unfold curveOrder at h
    split at h
    next he => subst he; obtain rfl := Option.some.inj h; exact ⟨28, .p224⟩
    split at h
    next he => subst he; obtain rfl := Option.some.inj h; exact ⟨32, .p256⟩
    split at h
    next he => subst he; obtain rfl := Option.some.inj h; exact ⟨48, .p384⟩
    split at h
    next he => subst he; obtain rfl := Option.some.inj h; exact ⟨66, .p521⟩
    · cases h
  · rintro ⟨size, h⟩
    cases h <;> decide +kernel

theorem orderSize_eq {oid : List Nat} {n size : Nat} (h : CurveOrder oid n size) : orderSize n = size ∧ n < 256 ^ size ∧ 0 < n := by
  cases h <;> decide +kernel

theorem curveOrder_unique {oid : List Nat} {n n' size size' : Nat} (h : CurveOrder oid n size) (h' : CurveOrder oid n' size') : n = n' ∧ size = size' := by
  have e := (curveOrder_iff.2 ⟨_, h⟩).symm.trans (curveOrder_iff.2 ⟨_, h'⟩)
  obtain rfl := Option.some.inj e
  exact ⟨rfl, (orderSize_eq h).1.symm.trans (orderSize_eq h').1⟩

/-- Keys below the bound lose nothing but zeros. -/
theorem stripKey_ok {size : Nat} : ∀ {b : Bytes}, beNat b < 256 ^ size → ∃ z s, b = List.replicate z 0 ++ s ∧ stripKey size b = .ok s ∧ s.length ≤ size
  | [], _ => ⟨0, [], rfl, rfl, Nat.zero_le _⟩
  | x :: b, h => by
    rw [stripKey]
    by_cases hl : (x :: b).length > size
    · rw [if_pos hl]
      have hx : x = 0 := by
        refine Classical.byContradiction (fun hx => ?_)
        have : 1 ≤ x.toNat := by
          refine Nat.pos_of_ne_zero (fun h0 => hx ?_)
          rw [← UInt8.toNat_inj]; exact h0
        have h1 : 256 ^ size ≤ 256 ^ b.length := Nat.pow_le_pow_right (by omega) (by rw [List.length_cons] at hl; omega)
        have h2 : 1 * 256 ^ b.length ≤ x.toNat * 256 ^ b.length := Nat.mul_le_mul_right _ this
        rw [beNat] at h
        omega
      subst hx
      rw [if_neg (by simp)]
      obtain ⟨z, s, h1, h2, h3⟩ := stripKey_ok (size := size) (b := b) (by
        rw [beNat, show (0 : UInt8).toNat = 0 from rfl, Nat.zero_mul, Nat.zero_add] at h
        exact h)
      exact ⟨z + 1, s, by rw [h1]; rfl, h2, h3⟩
    · rw [if_neg hl]
      exact ⟨0, x :: b, rfl, rfl, Nat.le_of_not_lt hl⟩

theorem beNat_zeros (z : Nat) (b : Bytes) : beNat (List.replicate z 0 ++ b) = beNat b := by
  induction z with
  | zero => rfl
  | succ z ih => rw [List.replicate_succ, List.cons_append, beNat, ih, show (0 : UInt8).toNat = 0 from rfl, Nat.zero_mul, Nat.zero_add]

theorem padLeft_ok {size : Nat} {s : Bytes} (h : s.length ≤ size) : ∃ p, padLeft size s = .ok p ∧ p.length = size ∧ beNat p = beNat s := by
  unfold padLeft
  rw [if_neg (by omega)]
  exact ⟨_, rfl, by rw [List.length_append, List.length_replicate]; omega, beNat_zeros _ _⟩

theorem beNat_natBytes (n : Nat) : beNat (natBytes n) = n := (natBytes_shortest n).1

theorem natBytes_fits {n size : Nat} : (natBytes n).length ≤ size ↔ n < 256 ^ size := by
  constructor
  · intro h
    have := beNat_lt (natBytes n)
    rw [beNat_natBytes] at this
    exact Nat.lt_of_lt_of_le this (Nat.pow_le_pow_right (by omega) h)
  · intro h
    have hs := natBytes_shortest n
    cases hb : natBytes n with
    | nil => exact Nat.zero_le _
    | cons x r =>
      have hx := hs.2 x r hb
      have h1 : 1 ≤ x.toNat := Nat.pos_of_ne_zero (fun h0 => hx (by rw [← UInt8.toNat_inj]; exact h0))
      have h2 := hs.1
      rw [hb, beNat] at h2
      have h3 : 1 * 256 ^ r.length ≤ x.toNat * 256 ^ r.length := Nat.mul_le_mul_right _ h1
      have h4 : 256 ^ r.length < 256 ^ size := by omega
      have := (Nat.pow_lt_pow_iff_right (by omega : 1 < 256)).1 h4
      rw [List.length_cons]; omega

/-- `parseECPrivateKey` without its loops. -/
theorem parseEc_eq {env : KeyEnv} {named : Option (List Nat)} {der rest : Bytes} {f : EcFields} (h : env.unEc der = some (f, rest)) (hv : f.version = 1)
    {n size : Nat} (hc : CurveOrder (named.getD f.curve) n size) (hk : beNat f.key < n) :
    ∃ fixed, fixed.length = size ∧ beNat fixed = beNat f.key ∧ parseEcWith env named der = .ok (.ok ⟨some (named.getD f.curve), (beNat f.key : Int),
      (env.baseMult (named.getD f.curve) fixed).1, (env.baseMult (named.getD f.curve) fixed).2⟩) := by
  obtain ⟨e1, e2, -⟩ := orderSize_eq hc
  obtain ⟨z, s, h1, h2, h3⟩ := stripKey_ok (size := size) (b := f.key) (by omega)
  obtain ⟨p, p1, p2, p3⟩ := padLeft_ok h3
  refine ⟨p, p2, by rw [p3, h1, beNat_zeros], ?_⟩
  unfold parseEcWith
  simp only [h]
  rw [if_neg (by simp [hv])]
  simp only [curveOrder_iff.2 ⟨_, hc⟩, setBytes_eq]
  rw [if_neg (by omega), e1, h2]
  simp only [p1]

/-- What it returns otherwise. -/
theorem parseEc_error {env : KeyEnv} {named : Option (List Nat)} {der : Bytes}
    (h : ¬ ∃ f rest n size, env.unEc der = some (f, rest) ∧ f.version = 1 ∧ CurveOrder (named.getD f.curve) n size ∧ beNat f.key < n) :
    ∃ e, parseEcWith env named der = .ok (.error e) ∧ e ≠ .length := by
  unfold parseEcWith
  cases hu : env.unEc der with
  | none => exact ⟨_, rfl, by simp⟩
  | some p =>
    obtain ⟨f, rest⟩ := p
    simp only
    by_cases hv : f.version = 1
    case neg => rw [if_pos hv]; exact ⟨_, rfl, by simp⟩
    rw [if_neg (by simp [hv])]
    cases hc : curveOrder (named.getD f.curve) with
    | none => exact ⟨_, rfl, by simp⟩
    | some n =>
      obtain ⟨size, hc⟩ := curveOrder_iff.1 hc
      simp only [setBytes_eq]
      by_cases hk : beNat f.key < n
      · exact absurd ⟨f, rest, n, size, hu, hv, hc, hk⟩ h
      · rw [if_pos (by omega)]
        exact ⟨_, rfl, by simp⟩

theorem additional_ok : ∀ {crt : List (Int × Int)} {more : List Int} {l : List (Int × Int × Int)}, additionalPrimes crt more = .ok l →
    crt.length ≤ more.length ∧ l.map (fun a => a.1) = more.take crt.length
  | [], more, l, h => by obtain rfl := Except.ok.inj h; exact ⟨Nat.zero_le _, rfl⟩
  | _ :: _, [], l, h => by cases h
  | v :: crt, p :: more, l, h => by
    rw [additionalPrimes] at h
    cases hr : additionalPrimes crt more with
    | error e => rw [hr] at h; cases h
    | ok l' =>
      rw [hr] at h
      obtain rfl := Except.ok.inj h
      obtain ⟨h1, h2⟩ := additional_ok hr
      exact ⟨by simp only [List.length_cons]; omega, by simp only [List.map_cons, h2, List.length_cons, List.take_succ_cons]⟩

theorem additional_total : ∀ {crt : List (Int × Int)} {more : List Int}, crt.length ≤ more.length → ∃ l, additionalPrimes crt more = .ok l
  | [], _, _ => ⟨_, rfl⟩
  | _ :: _, [], h => by simp at h
  | v :: crt, p :: more, h => by
    obtain ⟨l, hl⟩ := additional_total (crt := crt) (more := more) (by simpa using h)
    rw [additionalPrimes, hl]
    exact ⟨_, rfl⟩

end Apk
