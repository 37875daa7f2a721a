import Verif.Model.Curve
import Verif.Spec.Curve
import Verif.Props.X509
import Verif.Proofs.Keys
/-! # C69: points of elliptic curves in public keys -/
namespace Apk
open Spec

set_option exponentiation.threshold 600

theorem poly_int (p b x : Nat) (hp : 0 < p) :
    (p : Int) ∣ (curvePolynomial p b x : Int) - ((x : Int) * x * x - 3 * x + b) ∧ curvePolynomial p b x < p := by
  have h3 : (((x + x) % p + x) % p) < p := Nat.mod_lt _ hp
  have em : ∀ a : Nat, ∃ q : Int, ((a % p : Nat) : Int) = a - p * q := fun a => ⟨((a / p : Nat) : Int), by
    have := Nat.div_add_mod a p
    have : ((p * (a / p) + a % p : Nat) : Int) = (a : Int) := by rw [this]
    rw [Int.natCast_add, Int.natCast_mul] at this
    omega⟩
  unfold curvePolynomial
  refine ⟨?_, Nat.mod_lt _ hp⟩
  show _ ∣ ((((x * x % p * x % p + (p - ((x + x) % p + x) % p)) % p + b) % p : Nat) : Int) - _
  obtain ⟨q1, h1⟩ := em ((x * x % p * x % p + (p - ((x + x) % p + x) % p)) % p + b)
  obtain ⟨q2, h2⟩ := em (x * x % p * x % p + (p - ((x + x) % p + x) % p))
  obtain ⟨q3, h3'⟩ := em (x * x % p * x)
  obtain ⟨q4, h4⟩ := em (x * x)
  obtain ⟨q5, h5⟩ := em ((x + x) % p + x)
  obtain ⟨q6, h6⟩ := em (x + x)
  refine ⟨1 - q5 * (-1) + q6 - q1 - q2 - q3 - q4 * x, ?_⟩
  rw [h1, Int.natCast_add, h2, Int.natCast_add, h3', Int.natCast_mul, h4, Int.ofNat_sub (Nat.le_of_lt h3), h5, Int.natCast_add, h6,
    Int.natCast_add, Int.natCast_mul]
  generalize (x : Int) = X
  generalize (b : Int) = B
  generalize (p : Int) = P
  grind

theorem onCurve_iff {p b x y : Nat} (hp : 0 < p) :
    y * y % p = curvePolynomial p b x ↔ (p : Int) ∣ (y : Int) * y - ((x : Int) * x * x - 3 * x + b) := by
  obtain ⟨h1, h2⟩ := poly_int p b x hp
  have hy := Nat.mod_lt (y * y) hp
  have e : (p : Int) ∣ ((y * y % p : Nat) : Int) - (y : Int) * y := by
    refine ⟨-((y * y / p : Nat) : Int), ?_⟩
    have := Nat.div_add_mod (y * y) p
    have : ((p * (y * y / p) + y * y % p : Nat) : Int) = ((y * y : Nat) : Int) := by rw [this]
    rw [Int.natCast_add, Int.natCast_mul, Int.natCast_mul] at this
    rw [Int.mul_neg]
    omega
  generalize curvePolynomial p b x = c at *
  generalize y * y % p = d at *
  generalize (y : Int) * y = Y at *
  generalize (x : Int) * x * x - 3 * x + b = X at *
  constructor
  · rintro rfl
    have := Int.dvd_sub h1 e
    rwa [show (d : Int) - X - (d - Y) = Y - X by omega] at this
  · intro h
    have := Int.dvd_sub (Int.dvd_add h e) h1
    rw [show Y - X + ((d : Int) - Y) - (c - X) = d - c by omega] at this
    obtain ⟨k, hk⟩ := this
    rcases Int.lt_trichotomy k 0 with h | h | h
    · have := Int.mul_le_mul_of_nonneg_left (show k ≤ -1 by omega) (show (0 : Int) ≤ p by omega); omega
    · subst h; omega
    · have := Int.mul_le_mul_of_nonneg_left (show 1 ≤ k by omega) (show (0 : Int) ≤ p by omega); omega

theorem pointOf_iff {c : NistCurve} {p b : Nat} (hp : 0 < p) (h1 : (p : Int) = c.p) (h2 : (b : Int) = c.b) (data : Bytes) (x y : Int) :
    pointOf c.size p b data = some (x, y) ↔ c.Has x y ∧ PointBytes c x y data := by
  have key : ∀ (bx bw : Bytes), bx.length = c.size → bw.length = c.size → (pointOf c.size p b (4 :: (bx ++ bw)) = some (x, y) ↔
      c.Has x y ∧ (beNat bx : Int) = x ∧ (beNat bw : Int) = y) := by
    intro bx bw hx hw
    show (if (4 : UInt8) ≠ 4 then none else if (bx ++ bw).length ≠ 2 * c.size then none else
      if p ≤ setBytes ((bx ++ bw).take c.size) then none else if p ≤ setBytes ((bx ++ bw).drop c.size) then none else
      if setBytes ((bx ++ bw).drop c.size) * setBytes ((bx ++ bw).drop c.size) % p ≠ curvePolynomial p b (setBytes ((bx ++ bw).take c.size)) then none
      else some ((setBytes ((bx ++ bw).take c.size) : Int), (setBytes ((bx ++ bw).drop c.size) : Int))) = _ ↔ _
    rw [List.take_left' hx, List.drop_left' hx, setBytes_eq, setBytes_eq, if_neg (by simp), if_neg (by rw [List.length_append]; omega)]
    generalize beNat bx = u
    generalize beNat bw = v
    unfold NistCurve.Has
    rw [← h1, ← h2]
    by_cases hu : p ≤ u
    · rw [if_pos hu]
      constructor
      · intro h; cases h
      · rintro ⟨⟨_, h, _⟩, rfl, rfl⟩; omega
    rw [if_neg hu]
    by_cases hv : p ≤ v
    · rw [if_pos hv]
      constructor
      · intro h; cases h
      · rintro ⟨⟨_, _, _, h, _⟩, rfl, rfl⟩; omega
    rw [if_neg hv]
    by_cases hc : v * v % p = curvePolynomial p b u
    · rw [if_neg (by simpa using hc)]
      constructor
      · intro h
        cases h
        exact ⟨⟨by omega, by omega, by omega, by omega, (onCurve_iff hp).1 hc⟩, rfl, rfl⟩
      · rintro ⟨_, rfl, rfl⟩; rfl
    · rw [if_pos hc]
      constructor
      · intro h; cases h
      · rintro ⟨⟨_, _, _, _, h⟩, rfl, rfl⟩
        exact absurd ((onCurve_iff hp).2 h) hc
  constructor
  · intro h
    cases data with
    | nil => cases h
    | cons t d =>
      by_cases ht : t = 4
      · subst ht
        by_cases hl : d.length = 2 * c.size
        · have e : d = d.take c.size ++ d.drop c.size := (List.take_append_drop _ _).symm
          rw [e] at h
          have l1 : (d.take c.size).length = c.size := by rw [List.length_take]; omega
          have l2 : (d.drop c.size).length = c.size := by rw [List.length_drop]; omega
          obtain ⟨k1, k2, k3⟩ := (key _ _ l1 l2).1 h
          exact ⟨k1, _, _, l1, l2, k2, k3, by rw [← e]⟩
        · have h : (if (4 : UInt8) ≠ 4 then none else if d.length ≠ 2 * c.size then none else _) = some (x, y) := h
          rw [if_neg (by simp), if_pos hl] at h; cases h
      · have h : (if t ≠ 4 then none else _) = some (x, y) := h
        rw [if_pos ht] at h; cases h
  · rintro ⟨h, bx, bw, l1, l2, k1, k2, rfl⟩
    exact (key _ _ l1 l2).2 ⟨h, k1, k2⟩

/-- C69: the octets of an ECDSA key are accepted for a curve exactly if they are 4 and the coordinates, in the length of the prime, of
    a point of this curve; the recorded numbers are the coordinates. -/
theorem C69_point_iff (curve : List Nat) (data : Bytes) (x y : Int) :
    goPoint curve data = some (x, y) ↔ ∃ c, CurveOid curve c ∧ c.Has x y ∧ PointBytes c x y data := by
  have one : ∀ {c : NistCurve} {p b : Nat}, curveParams curve = some (c.size, p, b) → 0 < p → (p : Int) = c.p → (b : Int) = c.b →
      CurveOid curve c → (goPoint curve data = some (x, y) ↔ ∃ c, CurveOid curve c ∧ c.Has x y ∧ PointBytes c x y data) := by
    intro c p b e hp h1 h2 hc
    have e' : goPoint curve data = pointOf c.size p b data := by unfold goPoint; rw [e]
    rw [e', pointOf_iff hp h1 h2]
    constructor
    · intro h; exact ⟨c, hc, h⟩
    · rintro ⟨c', hc', h⟩
      have : c' = c := by cases hc <;> cases hc' <;> rfl
      rwa [this] at h
  by_cases a1 : curve = [1,3,132,0,33]
  · subst a1; exact one (c := P224) rfl (by decide +kernel) (by decide +kernel) (by decide +kernel) .p224
  by_cases a2 : curve = [1,2,840,10045,3,1,7]
  · subst a2; exact one (c := P256) rfl (by decide +kernel) (by decide +kernel) (by decide +kernel) .p256
  by_cases a3 : curve = [1,3,132,0,34]
  · subst a3; exact one (c := P384) rfl (by decide +kernel) (by decide +kernel) (by decide +kernel) .p384
  by_cases a4 : curve = [1,3,132,0,35]
  · subst a4; exact one (c := P521) rfl (by decide +kernel) (by decide +kernel) (by decide +kernel) .p521
  have e : goPoint curve data = none := by
    unfold goPoint curveParams
    rw [if_neg a1, if_neg a2, if_neg a3, if_neg a4]
  rw [e]
  constructor
  · intro h; cases h
  · rintro ⟨c, hc, _⟩
    cases hc <;> contradiction

/-- C69: the octets of a point are determined by the point. -/
theorem C69_one_encoding {c : NistCurve} {x y x' y' : Int} {b b' : Bytes} (h : PointBytes c x y b) (h' : PointBytes c x' y' b') :
    b = b' ↔ x = x' ∧ y = y' := by
  obtain ⟨bx, bw, l1, l2, rfl, rfl, rfl⟩ := h
  obtain ⟨bx', bw', l1', l2', rfl, rfl, rfl⟩ := h'
  constructor
  · intro e
    have e := (List.cons.inj e).2
    have := List.append_inj e (by omega)
    rw [this.1, this.2]; exact ⟨rfl, rfl⟩
  · rintro ⟨e1, e2⟩
    rw [beNat_inj (by omega) (Int.ofNat_inj.1 e1), beNat_inj (by omega) (Int.ofNat_inj.1 e2)]

theorem curveOid_supported {curve : List Nat} {c : NistCurve} (h : CurveOid curve c) : curve ∈ supportedCurves := by
  cases h <;> decide

/-- C69: every point of the curves P-224, P-256, P-384 and P-521 can be used as a public key: its SubjectPublicKeyInfo is accepted as the
    ECDSA key with this curve and these coordinates. -/
theorem C69_key_accepted {te : TimeEnv} {env : Env1} {curve : List Nat} {c : NistCurve} {x y : Int} {point b : Bytes}
    (hc : CurveOid curve c) (hh : c.Has x y) (hb : PointBytes c x y point) (hi : EcKeyInfo curve point b) :
    (concreteEnv1 (goCertEnv te) env).parsePKIX b = some (Key.ecdsa curve x y).pub := by
  refine C65_public_key_iff.2 ⟨_, ?_, rfl⟩
  obtain ⟨o, cb, alg, bits, ho, hcb, ha, hbits, hs⟩ := hi
  obtain ⟨oc, ho1, ho2⟩ := ho
  obtain ⟨cc, hc1, hc2⟩ := hcb
  let pv : RawVal := ⟨0, 6, false, cc, cb⟩
  have ra : ∀ r, Reads (goAsnEnv te) algIdTy {} (([] : Bytes), ([1,2,840,10045,2,1] : List Nat), pv, ()) (alg ++ r) r := by
    intro r
    have := reads_struct (env := goAsnEnv te) (raw := false) (fs := .cons [] .oid (.cons (b!"optional") .rawValue .nil))
      (ha.located rfl (present_plain (t := algIdTy) plain0 rfl) r) (v := (([1,2,840,10045,2,1] : List Nat), pv, ())) (by
        refine readsAll_cons.2 ⟨cb, ?_, readsAll_cons.2 ⟨[], ?_, readsAll_nil⟩⟩
        · rw [fp_empty]
          exact (reads_prim (t := .oid) (by simp) (by simp) (by simp)).2 (.inl ⟨_, _, ho2.located rfl (present_plain (t := .oid) plain0 rfl) cb, ho1⟩)
        · rw [fp_optional]
          have := reads_raw (env := goAsnEnv te) (fp := { optional := true }) rfl rfl hc2 []
          rwa [List.append_nil] at this)
    exact this
  have rs : Reads (goAsnEnv te) publicKeyInfoTy {} (b, (([] : Bytes), ([1,2,840,10045,2,1] : List Nat), pv, ()), (⟨point, 8 * point.length⟩ : BitStr), ()) b [] := by
    have := reads_struct (env := goAsnEnv te) (raw := true) (fs := .cons [] algIdTy (.cons [] .bits .nil)) (hs.located rfl (present_plain (t := publicKeyInfoTy) plain0 rfl) [])
      (v := ((([] : Bytes), ([1,2,840,10045,2,1] : List Nat), pv, ()), (⟨point, 8 * point.length⟩ : BitStr), ())) (by
        refine readsAll_cons.2 ⟨bits, ?_, readsAll_cons.2 ⟨[], ?_, readsAll_nil⟩⟩
        · rw [fp_empty]; exact ra _
        · rw [fp_empty]
          have := reads_bits (env := goAsnEnv te) plain0 hbits []
          rwa [List.append_nil] at this)
    rwa [List.append_nil] at this
  refine ⟨[], [1,2,840,10045,2,1], pv, ⟨point, 8 * point.length⟩, false, rs, ?_, fun h => by cases h⟩
  exact .ecdsa (data := point) (aligned_iff.2 (rightAlign_whole point).symm) ⟨cc, hc1, hc2⟩ (curveOid_supported hc)
    ((C69_point_iff _ _ _ _).2 ⟨c, hc, hh, hb⟩)

/-- C69: the ECDSA keys that are accepted, in certificates and in signing blocks, are points of the curves they name. -/
theorem C69_keys_are_points {te : TimeEnv} {oid : List Nat} {params : RawVal} {bits : BitStr} {curve : List Nat} {x y : Int} {re : Bool} :
    KeyIs (goCertEnv te) oid params bits (.ecdsa curve x y) re ↔ oid = [1,2,840,10045,2,1] ∧ re = false ∧ OidElem curve params.full ∧
      ∃ c data, CurveOid curve c ∧ c.Has x y ∧ PointBytes c x y data ∧ Aligned bits data := by
  constructor
  · intro h
    cases h with
    | ecdsa h1 h2 h3 h4 =>
      obtain ⟨c, k1, k2, k3⟩ := (C69_point_iff _ _ _ _).1 h4
      exact ⟨rfl, rfl, h2, c, _, k1, k2, k3, h1⟩
  · rintro ⟨rfl, rfl, h2, c, data, k1, k2, k3, h1⟩
    exact .ecdsa h1 h2 (curveOid_supported k1) ((C69_point_iff _ _ _ _).2 ⟨c, k1, k2, k3⟩)

/-! ## The generators -/

/-- The coordinates of the generator of P-256. -/
def p256Gx : Bytes := [0x6b, 0x17, 0xd1, 0xf2, 0xe1, 0x2c, 0x42, 0x47, 0xf8, 0xbc, 0xe6, 0xe5, 0x63, 0xa4, 0x40, 0xf2, 0x77, 0x03, 0x7d, 0x81, 0x2d, 0xeb, 0x33, 0xa0, 0xf4, 0xa1, 0x39, 0x45, 0xd8, 0x98, 0xc2, 0x96]
def p256Gy : Bytes := [0x4f, 0xe3, 0x42, 0xe2, 0xfe, 0x1a, 0x7f, 0x9b, 0x8e, 0xe7, 0xeb, 0x4a, 0x7c, 0x0f, 0x9e, 0x16, 0x2b, 0xce, 0x33, 0x57, 0x6b, 0x31, 0x5e, 0xce, 0xcb, 0xb6, 0x40, 0x68, 0x37, 0xbf, 0x51, 0xf5]

/-- The key info of this point, as OpenSSL writes it. -/
def p256GInfo : Bytes :=
  [0x30, 0x59, 0x30, 0x13, 0x06, 0x07, 0x2a, 0x86, 0x48, 0xce, 0x3d, 0x02, 0x01, 0x06, 0x08, 0x2a, 0x86, 0x48, 0xce, 0x3d, 0x03, 0x01, 0x07,
   0x03, 0x42, 0x00] ++ 4 :: (p256Gx ++ p256Gy)

theorem p256Has : P256.Has 0x6b17d1f2e12c4247f8bce6e563a440f277037d812deb33a0f4a13945d898c296 0x4fe342e2fe1a7f9b8ee7eb4a7c0f9e162bce33576b315ececbb6406837bf51f5 := by
  unfold NistCurve.Has P256; decide +kernel

theorem p256Bytes : PointBytes P256 0x6b17d1f2e12c4247f8bce6e563a440f277037d812deb33a0f4a13945d898c296 0x4fe342e2fe1a7f9b8ee7eb4a7c0f9e162bce33576b315ececbb6406837bf51f5
    (4 :: (p256Gx ++ p256Gy)) := ⟨p256Gx, p256Gy, by decide +kernel, by decide +kernel, by decide +kernel, by decide +kernel, rfl⟩

theorem p256Info : EcKeyInfo [1,2,840,10045,3,1,7] (4 :: (p256Gx ++ p256Gy)) p256GInfo := by
  have e1 : Elem 0 6 false [0x2a, 0x86, 0x48, 0xce, 0x3d, 0x02, 0x01] _ := tlv_elem (by decide) (by decide) (by decide)
  have e2 : Elem 0 6 false [0x2a, 0x86, 0x48, 0xce, 0x3d, 0x03, 0x01, 0x07] _ := tlv_elem (by decide) (by decide) (by decide)
  have e3 : Elem 0 3 false (0 :: 4 :: (p256Gx ++ p256Gy)) _ := tlv_elem (by decide) (by decide) (by decide)
  have e4 : Elem 0 16 true (tlv 0 false 6 [0x2a, 0x86, 0x48, 0xce, 0x3d, 0x02, 0x01] ++ tlv 0 false 6 [0x2a, 0x86, 0x48, 0xce, 0x3d, 0x03, 0x01, 0x07]) _ :=
    tlv_elem (by decide) (by decide) (by decide)
  refine ⟨_, _, _, _, ⟨_, (oid_iff _ _).1 (by decide), e1⟩, ⟨_, (oid_iff _ _).1 (by decide), e2⟩, e4, e3, ?_⟩
  rw [show p256GInfo = tlv 0 true 16 (tlv 0 true 16 (tlv 0 false 6 [0x2a, 0x86, 0x48, 0xce, 0x3d, 0x02, 0x01] ++
    tlv 0 false 6 [0x2a, 0x86, 0x48, 0xce, 0x3d, 0x03, 0x01, 0x07]) ++ tlv 0 false 3 (0 :: 4 :: (p256Gx ++ p256Gy))) by decide +kernel]
  exact tlv_elem (by decide) (by decide) (by decide +kernel)

/-- C69: the hypotheses of `C69_key_accepted` are met by the generator of P-256 in the encoding OpenSSL gives it. -/
example (te : TimeEnv) (env : Env1) : (concreteEnv1 (goCertEnv te) env).parsePKIX p256GInfo = some (Key.ecdsa [1,2,840,10045,3,1,7]
    0x6b17d1f2e12c4247f8bce6e563a440f277037d812deb33a0f4a13945d898c296 0x4fe342e2fe1a7f9b8ee7eb4a7c0f9e162bce33576b315ececbb6406837bf51f5).pub :=
  C69_key_accepted .p256 p256Has p256Bytes p256Info

/-- A point that is not on the curve is refused. -/
example : goPoint [1,2,840,10045,3,1,7] (4 :: (p256Gx ++ p256Gx)) = none := by decide +kernel


example : P224.Has 0xb70e0cbd6bb4bf7f321390b94a03c1d356c21122343280d6115c1d21 0xbd376388b5f723fb4c22dfe6cd4375a05a07476444d5819985007e34 := by
  unfold NistCurve.Has P224; decide +kernel

example : P384.Has 0xaa87ca22be8b05378eb1c71ef320ad746e1d3b628ba79b9859f741e082542a385502f25dbf55296c3a545e3872760ab7
    0x3617de4a96262c6f5d9e98bf9292dc29f8f41dbd289a147ce9da3113b5f0b8c00a60b1ce1d7e819d7a431d7c90ea0e5f := by
  unfold NistCurve.Has P384; decide +kernel

example : P521.Has 0x00c6858e06b70404e9cd9e3ecb662395b4429c648139053fb521f828af606b4d3dbaa14b5e77efe75928fe1dc127a2ffa8de3348b3c1856a429bf97e7e31c2e5bd66
    0x011839296a789a3bc0045c8a5fb42c7d1bd998f54449579b446817afbd17273e662c97ee72995ef42640c550b9013fad0761353c7086a272c24088be94769fd16650 := by
  unfold NistCurve.Has P521; decide +kernel

end Apk
