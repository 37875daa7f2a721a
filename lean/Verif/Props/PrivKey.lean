import Verif.Proofs.PrivKey
/-! # C85: private keys -/
namespace Apk
open Spec

/-! ## RSA -/

/-- `ParsePKCS1PrivateKey` accepts exactly one value without trailing data, of a known version, with positive numbers that make a valid key. -/
theorem C85_rsa_iff (env : KeyEnv) (der : Bytes) (key : RsaPriv) :
    parsePkcs1 env der = .ok key ↔ ∃ f, env.unPkcs1 der = some (f, []) ∧ RsaKeyIs f key ∧ env.validate key = true := by
  unfold parsePkcs1
  cases hu : env.unPkcs1 der with
  | none => exact ⟨fun h => (by cases h), fun ⟨f, h, _⟩ => (by cases h)⟩
  | some p =>
    obtain ⟨f, rest⟩ := p
    simp only
    constructor
    · intro h
      split at h
      · cases h
      next h0 =>
      split at h
      · cases h
      next h1 =>
      split at h
      · cases h
      next h2 =>
      split at h
      · cases h
      next h3 =>
      split at h
      next h4 =>
        obtain rfl := Except.ok.inj h
        obtain rfl : rest = [] := List.eq_nil_of_length_eq_zero (by omega)
        refine ⟨f, rfl, ⟨by omega, ⟨rfl, by omega⟩, rfl, ⟨rfl, by omega⟩, rfl, ?_⟩, h4⟩
        intro p hp
        simp only [List.mem_cons, List.mem_map] at hp
        rcases hp with rfl | rfl | ⟨a, ha, rfl⟩
        · omega
        · omega
        · refine Int.not_le.1 (fun hle => h3 (List.any_eq_true.2 ⟨a, ha, by simp [hle]⟩))
      · cases h
    · rintro ⟨f', hf, hk, hv⟩
      obtain ⟨rfl, rfl⟩ := Prod.mk.inj (Option.some.inj hf)
      have hp : 0 < f.p := hk.positive _ (by rw [hk.primes]; simp)
      have hq : 0 < f.q := hk.positive _ (by rw [hk.primes]; simp)
      have hn := hk.n.2
      have hd := hk.d.2
      have hkey : key = ⟨f.n, f.e, f.d, f.p :: f.q :: f.extra.map (fun a => a.1)⟩ := by
        have h1 := hk.n.1; have h2 := hk.e; have h3 := hk.d.1; have h4 := hk.primes
        cases key; simp only at h1 h2 h3 h4; subst h1 h2 h3 h4; rfl
      rw [if_neg (by simp), if_neg (by have := hk.version; omega), if_neg (by omega), if_neg, if_pos (by rw [← hkey]; exact hv), hkey]
      simp only [List.any_eq_true, decide_eq_true_eq, not_exists, not_and, Int.not_le]
      intro a ha
      refine hk.positive _ ?_
      rw [hk.primes]
      exact List.mem_append_right _ (List.mem_map_of_mem ha)

/-- What `MarshalPKCS1PrivateKey` writes: the numbers of the key; of the primes after the second those for which values were precomputed. -/
theorem C85_rsa_written {env : KeyEnv} {key : RsaPriv} {b : Bytes} (h : marshalPkcs1 env key = .ok b) (hb : b ≠ []) :
    ∃ f, env.marPkcs1 f = some b ∧ f.version = (if key.primes.length > 2 then 1 else 0) ∧ f.n = key.n ∧ f.e = key.e ∧ f.d = key.d ∧
      [f.p, f.q] ++ f.extra.map (fun a => a.1) = key.primes.take (2 + (env.precompute key).crt.length) := by
  unfold marshalPkcs1 at h
  obtain ⟨n, e, d, primes⟩ := key
  match primes, h with
  | [], h => cases h
  | [_], h => cases h
  | p :: q :: more, h =>
    simp only at h
    cases ha : additionalPrimes (env.precompute ⟨n, e, d, p :: q :: more⟩).crt more with
    | error x => rw [ha] at h; cases h
    | ok extra =>
      rw [ha] at h
      simp only at h
      obtain ⟨h1, h2⟩ := additional_ok ha
      generalize hf : (⟨_, _, _, _, _, _, _, _, _, _⟩ : Pkcs1Fields) = f at h
      cases hm : env.marPkcs1 f with
      | none =>
        rw [hm] at h
        exact absurd (Except.ok.inj h).symm hb
      | some b' =>
        rw [hm] at h
        obtain rfl := Except.ok.inj h
        refine ⟨f, hm, ?_⟩
        subst hf
        refine ⟨rfl, rfl, rfl, rfl, ?_⟩
        simp only [h2]
        rw [Nat.add_comm 2, List.take_succ_cons, List.take_succ_cons]
        rfl

/-- It panics exactly for keys with less than two primes, or with fewer than were precomputed for. -/
theorem C85_rsa_marshal_panics (env : KeyEnv) (key : RsaPriv) :
    (∃ p, marshalPkcs1 env key = .error p) ↔ key.primes.length < 2 + (env.precompute key).crt.length := by
  unfold marshalPkcs1
  obtain ⟨n, e, d, primes⟩ := key
  match primes with
  | [] => exact ⟨fun _ => by simp; omega, fun _ => ⟨_, rfl⟩⟩
  | [_] => exact ⟨fun _ => by simp; omega, fun _ => ⟨_, rfl⟩⟩
  | p :: q :: more =>
    simp only
    constructor
    · rintro ⟨x, h⟩
      refine Nat.lt_of_not_le (fun hle => ?_)
      obtain ⟨l, hl⟩ := additional_total (crt := (env.precompute ⟨n, e, d, p :: q :: more⟩).crt) (more := more) (by simp at hle; omega)
      rw [hl] at h
      cases h
    · intro h
      cases ha : additionalPrimes (env.precompute ⟨n, e, d, p :: q :: more⟩).crt more with
      | error x => exact ⟨_, rfl⟩
      | ok l =>
        have := (additional_ok ha).1
        simp at h
        omega

/-- A valid key with positive numbers that has been written is read back, if encoding/asn1 reads back what it writes and values were precomputed
    for all primes after the second. -/
theorem C85_rsa_round_trip {env : KeyEnv} (hR : ∀ f b, env.marPkcs1 f = some b → env.unPkcs1 b = some (f, [])) {key : RsaPriv} {b : Bytes}
    (hn : 0 < key.n) (hd : 0 < key.d) (hp : ∀ p ∈ key.primes, 0 < p) (hv : env.validate key = true)
    (hc : key.primes.length = 2 + (env.precompute key).crt.length) (h : marshalPkcs1 env key = .ok b) (hb : b ≠ []) :
    parsePkcs1 env b = .ok key := by
  obtain ⟨f, h1, h2, h3, h4, h5, h6⟩ := C85_rsa_written h hb
  rw [← hc, List.take_length] at h6
  exact (C85_rsa_iff env b key).2 ⟨f, hR _ _ h1, ⟨by rw [h2]; split <;> omega, ⟨h3.symm, h3 ▸ hn⟩, h4.symm, ⟨h5.symm, h5 ▸ hd⟩, h6.symm, hp⟩, hv⟩

/-! ## Elliptic curves -/

theorem parseEcWith_iff (env : KeyEnv) (named : Option (List Nat)) (der : Bytes) (key : EcPriv) :
    parseEcWith env named der = .ok (.ok key) ↔ ∃ f rest, env.unEc der = some (f, rest) ∧ EcKeyIs env f (named.getD f.curve) key := by
  constructor
  · intro h
    by_cases hx : ∃ f rest n size, env.unEc der = some (f, rest) ∧ f.version = 1 ∧ CurveOrder (named.getD f.curve) n size ∧ beNat f.key < n
    · obtain ⟨f, rest, n, size, hu, hv, hc, hk⟩ := hx
      obtain ⟨fixed, h1, h2, h3⟩ := parseEc_eq (named := named) hu hv hc hk
      rw [h3] at h
      exact ⟨f, rest, hu, n, size, fixed, hc, hv, hk, h1, h2, (Except.ok.inj (Except.ok.inj h)).symm⟩
    · obtain ⟨e, h1, -⟩ := parseEc_error hx
      rw [h1] at h
      cases h
  · rintro ⟨f, rest, hu, n, size, fixed, hc, hv, hk, h1, h2, rfl⟩
    obtain ⟨fixed', h1', h2', h3⟩ := parseEc_eq (named := named) hu hv hc hk
    obtain rfl : fixed = fixed' := beNat_inj (by omega) (by omega)
    exact h3

/-- `ParseECPrivateKey` accepts exactly the keys of version 1 on the four curves whose number is below the order; leading zeros may be missing or
    added. -/
theorem C85_ec_iff (env : KeyEnv) (der : Bytes) (key : EcPriv) :
    parseEc env der = .ok (.ok key) ↔ ∃ f rest, env.unEc der = some (f, rest) ∧ EcKeyIs env f f.curve key :=
  parseEcWith_iff env none der key

/-- It never panics and never complains about the length: a number below the order that is written with too many bytes begins with zeros. -/
theorem C85_ec_total (env : KeyEnv) (named : Option (List Nat)) (der : Bytes) :
    ∃ r, parseEcWith env named der = .ok r ∧ r ≠ .error .length := by
  by_cases hx : ∃ f rest n size, env.unEc der = some (f, rest) ∧ f.version = 1 ∧ CurveOrder (named.getD f.curve) n size ∧ beNat f.key < n
  · obtain ⟨f, rest, n, size, hu, hv, hc, hk⟩ := hx
    obtain ⟨fixed, h1, h2, h3⟩ := parseEc_eq (named := named) hu hv hc hk
    exact ⟨_, h3, by simp⟩
  · obtain ⟨e, h1, h2⟩ := parseEc_error hx
    exact ⟨_, h1, fun h => h2 (Except.error.inj h)⟩

/-- Different ways to write the number give the same key. -/
theorem C85_ec_value {env : KeyEnv} {der der' rest rest' : Bytes} {f f' : EcFields} {key : EcPriv} (h : env.unEc der = some (f, rest))
    (h' : env.unEc der' = some (f', rest')) (hv : f.version = f'.version) (hc : f.curve = f'.curve) (hk : beNat f.key = beNat f'.key)
    (hp : parseEc env der = .ok (.ok key)) : parseEc env der' = .ok (.ok key) := by
  obtain ⟨g, r, hu, n, size, fixed, h1, h2, h3, h4, h5, h6⟩ := (C85_ec_iff env der key).1 hp
  rw [h] at hu
  obtain ⟨rfl, rfl⟩ := Prod.mk.inj (Option.some.inj hu)
  refine (C85_ec_iff env der' key).2 ⟨f', rest', h', n, size, fixed, hc ▸ h1, hv ▸ h2, hk ▸ h3, h4, h5.trans hk, ?_⟩
  rw [h6, hc, hk]

/-- What `MarshalECPrivateKey` writes: the absolute value of the number, in as many octets as the order has. -/
theorem C85_ec_written (env : KeyEnv) (key : EcPriv) (b : Bytes) :
    marshalEc env key = .ok (.ok b) ↔ ∃ curve n size fixed, key.curve = some curve ∧ CurveOrder curve n size ∧ fixed.length = size ∧
      beNat fixed = key.d.natAbs ∧ env.marEc ⟨1, fixed, curve, env.marPoint curve key.x key.y⟩ = some b := by
  unfold marshalEc
  cases hk : key.curve with
  | none => exact ⟨fun h => (by cases h), fun ⟨_, _, _, _, h, _⟩ => (by cases h)⟩
  | some curve =>
    simp only
    cases hc : curveOrder curve with
    | none =>
      refine ⟨fun h => (by cases h), ?_⟩
      rintro ⟨c, n, size, fixed, h1, h2, -⟩
      obtain rfl := Option.some.inj h1
      rw [curveOrder_iff.2 ⟨_, h2⟩] at hc
      cases hc
    | some n =>
      obtain ⟨size, ho⟩ := curveOrder_iff.1 hc
      obtain ⟨e1, -⟩ := orderSize_eq ho
      simp only [e1]
      by_cases hf : (natBytes key.d.natAbs).length ≤ size
      · obtain ⟨p, p1, p2, p3⟩ := padLeft_ok hf
        rw [beNat_natBytes] at p3
        rw [p1]
        simp only
        constructor
        · intro h
          cases hm : env.marEc ⟨1, p, curve, env.marPoint curve key.x key.y⟩ with
          | none => rw [hm] at h; cases h
          | some b' =>
            rw [hm] at h
            obtain rfl := Except.ok.inj (Except.ok.inj h)
            exact ⟨curve, n, size, p, rfl, ho, p2, p3, hm⟩
        · rintro ⟨c, n', size', fixed, h1, h2, h3, h4, h5⟩
          obtain rfl := Option.some.inj h1
          obtain ⟨rfl, rfl⟩ := curveOrder_unique ho h2
          obtain rfl : fixed = p := beNat_inj (by omega) (by omega)
          rw [h5]
      · unfold padLeft
        rw [if_pos (by omega)]
        refine ⟨fun h => (by cases h), ?_⟩
        rintro ⟨c, n', size', fixed, h1, h2, h3, h4, h5⟩
        obtain rfl := Option.some.inj h1
        obtain ⟨rfl, rfl⟩ := curveOrder_unique ho h2
        exact absurd (natBytes_fits.2 (by have := beNat_lt fixed; rw [h3, h4] at this; exact this)) hf

/-- It panics exactly if the number takes more octets than the order of the curve. -/
theorem C85_ec_marshal_panics (env : KeyEnv) (key : EcPriv) :
    (∃ p, marshalEc env key = .error p) ↔ ∃ curve n size, key.curve = some curve ∧ CurveOrder curve n size ∧ 256 ^ size ≤ key.d.natAbs := by
  unfold marshalEc
  cases hk : key.curve with
  | none => exact ⟨fun ⟨_, h⟩ => (by cases h), fun ⟨_, _, _, h, _⟩ => (by cases h)⟩
  | some curve =>
    simp only
    cases hc : curveOrder curve with
    | none =>
      refine ⟨fun ⟨_, h⟩ => (by cases h), ?_⟩
      rintro ⟨c, n, size, h1, h2, -⟩
      obtain rfl := Option.some.inj h1
      rw [curveOrder_iff.2 ⟨_, h2⟩] at hc
      cases hc
    | some n =>
      obtain ⟨size, ho⟩ := curveOrder_iff.1 hc
      obtain ⟨e1, -⟩ := orderSize_eq ho
      simp only [e1]
      by_cases hf : (natBytes key.d.natAbs).length ≤ size
      · obtain ⟨p, p1, p2, p3⟩ := padLeft_ok hf
        rw [p1]
        simp only
        constructor
        · rintro ⟨x, h⟩
          split at h <;> cases h
        · rintro ⟨c, n', size', h1, h2, h3⟩
          obtain rfl := Option.some.inj h1
          obtain ⟨rfl, rfl⟩ := curveOrder_unique ho h2
          exact absurd (natBytes_fits.1 hf) (by omega)
      · unfold padLeft
        rw [if_pos (by omega)]
        exact ⟨fun _ => ⟨curve, n, size, rfl, ho, Nat.le_of_not_lt (fun h => hf (natBytes_fits.2 h))⟩, fun _ => ⟨_, rfl⟩⟩

/-- A key that has been written is read back, if its number is below the order and its point is that of the number. -/
theorem C85_ec_round_trip {env : KeyEnv} (hR : ∀ f b, env.marEc f = some b → env.unEc b = some (f, [])) {key : EcPriv} {b : Bytes} {curve : List Nat}
    {n size : Nat} (hc : CurveOrder curve n size) (hk : key.curve = some curve) (h0 : 0 ≤ key.d) (h1 : key.d < n)
    (hxy : ∀ fixed, fixed.length = size → (beNat fixed : Int) = key.d → env.baseMult curve fixed = (key.x, key.y))
    (h : marshalEc env key = .ok (.ok b)) : parseEc env b = .ok (.ok key) := by
  obtain ⟨c, n', size', fixed, h2, h3, h4, h5, h6⟩ := (C85_ec_written env key b).1 h
  rw [hk] at h2
  obtain rfl := Option.some.inj h2
  obtain ⟨rfl, rfl⟩ := curveOrder_unique hc h3
  have hd : (beNat fixed : Int) = key.d := by omega
  refine (C85_ec_iff env b key).2 ⟨_, [], hR _ _ h6, n, size, fixed, hc, rfl, ?_, h4, rfl, ?_⟩
  · show beNat fixed < n
    omega
  · simp only [hxy fixed h4 hd, hd]
    obtain ⟨kc, kd, kx, ky⟩ := key
    simp only at hk
    rw [hk]

/-- The sign of the number is lost. -/
theorem C85_ec_sign_lost (env : KeyEnv) (curve : Option (List Nat)) (d x y : Int) :
    marshalEc env ⟨curve, -d, x, y⟩ = marshalEc env ⟨curve, d, x, y⟩ := by
  unfold marshalEc
  simp only [Int.natAbs_neg]

/-! ## PKCS#8 -/

/-- `ParsePKCS8PrivateKey` accepts exactly the containers of RSA and EC keys that are accepted on their own; if the parameters name a curve, it is
    that one, whatever the key says. -/
theorem C85_pkcs8_iff (env : KeyEnv) (der : Bytes) (key : PrivKey) :
    parsePkcs8 env der = .ok (.ok key) ↔ ∃ f rest, env.unPkcs8 der = some (f, rest) ∧
      ((f.algo = [1,2,840,113549,1,1,1] ∧ ∃ g k, env.unPkcs1 f.key = some (g, []) ∧ RsaKeyIs g k ∧ env.validate k = true ∧ key = .rsa k) ∨
       (f.algo = [1,2,840,10045,2,1] ∧ ∃ g r curve k, env.unEc f.key = some (g, r) ∧ CurveIs env f.params g.curve curve ∧ EcKeyIs env g curve k ∧ key = .ec k)) := by
  have hcurve : ∀ params inner curve, CurveIs env params inner curve ↔ curve = (containerCurve env params).getD inner := by
    intro params inner curve
    unfold CurveIs containerCurve
    cases env.unOid params with
    | none => simp
    | some p =>
      obtain ⟨o, r⟩ := p
      simp only [Option.some.injEq, Prod.mk.injEq, Option.map_some, Option.getD_some]
      constructor
      · rintro (⟨_, rfl, _⟩ | ⟨h, _⟩)
        · rfl
        · cases h
      · rintro rfl
        exact .inl ⟨r, rfl, rfl⟩
  unfold parsePkcs8
  cases hu : env.unPkcs8 der with
  | none => exact ⟨fun h => (by cases h), fun ⟨f, r, h, _⟩ => (by cases h)⟩
  | some p =>
    obtain ⟨f, rest⟩ := p
    simp only
    by_cases hr : f.algo = [1,2,840,113549,1,1,1]
    · rw [if_pos hr]
      constructor
      · intro h
        cases hp : parsePkcs1 env f.key with
        | error e => rw [hp] at h; cases h
        | ok k =>
          rw [hp] at h
          obtain rfl := Except.ok.inj (Except.ok.inj h)
          obtain ⟨g, h1, h2, h3⟩ := (C85_rsa_iff env f.key k).1 hp
          exact ⟨f, rest, rfl, .inl ⟨hr, g, k, h1, h2, h3, rfl⟩⟩
      · rintro ⟨f', rest', hf, h⟩
        obtain ⟨rfl, rfl⟩ := Prod.mk.inj (Option.some.inj hf)
        rcases h with ⟨-, g, k, h1, h2, h3, rfl⟩ | ⟨he, -⟩
        · rw [(C85_rsa_iff env f.key k).2 ⟨g, h1, h2, h3⟩]
          rfl
        · rw [hr] at he
          exact absurd he (by decide)
    · rw [if_neg hr]
      by_cases he : f.algo = [1,2,840,10045,2,1]
      · rw [if_pos he]
        constructor
        · intro h
          cases hp : parseEcWith env (containerCurve env f.params) f.key with
          | error p => rw [hp] at h; cases h
          | ok x =>
            rw [hp] at h
            cases x with
            | error e => cases Except.ok.inj h
            | ok k =>
              obtain rfl := Except.ok.inj (Except.ok.inj h)
              obtain ⟨g, r, h1, h2⟩ := (parseEcWith_iff env _ f.key k).1 hp
              exact ⟨f, rest, rfl, .inr ⟨he, g, r, _, k, h1, (hcurve _ _ _).2 rfl, h2, rfl⟩⟩
        · rintro ⟨f', rest', hf, h⟩
          obtain ⟨rfl, rfl⟩ := Prod.mk.inj (Option.some.inj hf)
          rcases h with ⟨hr', -⟩ | ⟨-, g, r, curve, k, h1, h2, h3, rfl⟩
          · exact absurd hr' hr
          · obtain rfl := (hcurve _ _ _).1 h2
            rw [(parseEcWith_iff env _ f.key k).2 ⟨g, r, h1, h3⟩]
            rfl
      · rw [if_neg he]
        refine ⟨fun h => (by cases h), ?_⟩
        rintro ⟨f', rest', hf, h⟩
        obtain ⟨rfl, rfl⟩ := Prod.mk.inj (Option.some.inj hf)
        rcases h with ⟨h, -⟩ | ⟨h, -⟩
        · exact absurd h hr
        · exact absurd h he

/-- It never panics. -/
theorem C85_pkcs8_total (env : KeyEnv) (der : Bytes) : ∃ r, parsePkcs8 env der = .ok r := by
  unfold parsePkcs8
  cases env.unPkcs8 der with
  | none => exact ⟨_, rfl⟩
  | some p =>
    simp only
    split
    · exact ⟨_, rfl⟩
    split
    · obtain ⟨r, hr, -⟩ := C85_ec_total env (containerCurve env p.1.params) p.1.key
      rw [hr]
      exact ⟨_, rfl⟩
    · exact ⟨_, rfl⟩

/-! ## Examples -/

def toyCurve : List Nat := [1,2,840,10045,3,1,7]
def toyEcF : EcFields := ⟨1, List.replicate 31 0 ++ [7], toyCurve, []⟩
def toyRsaF : Pkcs1Fields := ⟨1, 105, 5, 29, 3, 5, none, none, none, [(7, 5, 1)]⟩
def toyRsaKey : RsaPriv := ⟨105, 5, 29, [3, 5, 7]⟩

/-- Values are written as one byte, the way a length is; what follows is trailing data. -/
def toyKeys : KeyEnv :=
  { unPkcs1 := fun b => match b with | 1 :: r => some (toyRsaF, r) | 2 :: r => some ({ toyRsaF with version := -7 }, r) | _ => none
    unEc := fun b => match b with
      | 1 :: r => some (toyEcF, r)
      | 2 :: r => some (⟨1, [0, 0, 0, 7], toyCurve, []⟩, r)
      | 3 :: r => some (⟨1, [], toyCurve, []⟩, r)
      | 4 :: r => some (⟨1, List.replicate 70 0 ++ [7], [1,3,132,0,34], []⟩, r)
      | _ => none
    unPkcs8 := fun b => match b with
      | 1 :: r => some (⟨0, [1,2,840,113549,1,1,1], [], [1]⟩, r)
      | 2 :: r => some (⟨9, [1,2,840,10045,2,1], [1], [4, 8]⟩, r)
      | 3 :: r => some (⟨0, [1,2,840,10045,2,1], [], [4]⟩, r)
      | _ => none
    unOid := fun b => match b with | 1 :: r => some (toyCurve, r) | _ => none
    marPkcs1 := fun f => if f = toyRsaF then some [1] else none
    marEc := fun f => if f = toyEcF then some [1] else none
    validate := fun k => decide (k.n = k.primes.foldl (· * ·) 1)
    precompute := fun _ => ⟨none, none, none, [(5, 1)]⟩
    baseMult := fun _ b => ((beNat b : Int) * 2, (b.length : Int))
    marPoint := fun _ _ _ => [] }

/-- A key with three primes and one on a curve are written and read back: they meet the hypotheses of the theorems. -/
theorem C85_example :
    (marshalPkcs1 toyKeys toyRsaKey = .ok [1] ∧ parsePkcs1 toyKeys [1] = .ok toyRsaKey) ∧
    (marshalEc toyKeys ⟨some toyCurve, 7, 14, 32⟩ = .ok (.ok [1]) ∧ parseEc toyKeys [1] = .ok (.ok ⟨some toyCurve, 7, 14, 32⟩)) ∧
    parseEc toyKeys [2] = .ok (.ok ⟨some toyCurve, 7, 14, 32⟩) ∧
    parsePkcs8 toyKeys [1] = .ok (.ok (.rsa toyRsaKey)) ∧
    parsePkcs8 toyKeys [3] = .ok (.ok (.ec ⟨some [1,3,132,0,34], 7, 14, 48⟩)) := by
  have hm : ∀ f b, toyKeys.marPkcs1 f = some b → toyKeys.unPkcs1 b = some (f, []) := by
    intro f b h
    simp only [toyKeys] at h
    split at h
    next he => obtain rfl := Option.some.inj h; rw [he]; rfl
    · cases h
  have hm' : ∀ f b, toyKeys.marEc f = some b → toyKeys.unEc b = some (f, []) := by
    intro f b h
    simp only [toyKeys] at h
    split at h
    next he => obtain rfl := Option.some.inj h; rw [he]; rfl
    · cases h
  have w1 : marshalPkcs1 toyKeys toyRsaKey = .ok [1] := by decide +kernel
  have w2 : marshalEc toyKeys ⟨some toyCurve, 7, 14, 32⟩ = .ok (.ok [1]) := by decide +kernel
  refine ⟨⟨w1, C85_rsa_round_trip hm (by decide) (by decide) (by decide) (by decide) (by decide) w1 (by decide)⟩,
    ⟨w2, C85_ec_round_trip hm' .p256 rfl (by decide) (by decide +kernel) ?_ w2⟩, by decide +kernel, by decide +kernel, by decide +kernel⟩
  intro fixed h1 h2
  simp only at h2
  simp only [toyKeys, h1, h2]
  rfl

/-- Trailing data: refused after an RSA key, ignored after an EC key, after a container and after the name of a curve. -/
theorem C85_trailing :
    (∀ (env : KeyEnv) (der rest : Bytes) (f : Pkcs1Fields), env.unPkcs1 der = some (f, rest) → rest ≠ [] → parsePkcs1 env der = .error .trailing) ∧
    parseEc toyKeys [1, 9, 9] = parseEc toyKeys [1] ∧ parsePkcs8 toyKeys [1, 9, 9] = .ok (.ok (.rsa toyRsaKey)) := by
  refine ⟨fun env der rest f h hr => ?_, by decide +kernel, by decide +kernel⟩
  unfold parsePkcs1
  rw [h]
  simp only
  rw [if_pos (List.length_pos_iff.2 hr)]

/-- The container decides on the curve: the key says P-384, the result is on P-256. Its version is not looked at. -/
theorem C85_container_wins : parsePkcs8 toyKeys [2] = .ok (.ok (.ec ⟨some toyCurve, 7, 14, 32⟩)) := by decide +kernel

/-- Zero is accepted as a key on a curve (the public one is the point at infinity); negative versions are accepted for RSA. -/
theorem C85_zero_accepted : parseEc toyKeys [3] = .ok (.ok ⟨some toyCurve, 0, 0, 32⟩) ∧ parsePkcs1 toyKeys [2] = .ok toyRsaKey := by decide +kernel

end Apk
