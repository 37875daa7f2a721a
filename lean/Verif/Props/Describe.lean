import Verif.Proofs.Calendar
import Verif.Spec.Describe
import Verif.Props.CertInfoTop
import Verif.Props.Rendering
import Verif.Props.Strings
import Verif.Props.Marshal
/-! # C82: printed descriptions of certificates and lineage nodes; calendar dates of instants (C67, C75) -/
namespace Apk
open Spec

/-! ## Dates -/

/-- C82: the date and time of day printed for an instant are those of the instant, counted one year and one month at a time; every
    date and time of day is printed for its instant. (Years before year 0 are printed with a sign.) -/
theorem C82_date_of_instant (t off : Int) (c : Civil) : civilAt t off = some c ↔ RealCivil c ∧ unixUtc c - off = t := by
  constructor
  · intro h
    obtain ⟨h1, h2⟩ := civilAt_spec h
    exact ⟨h1, by omega⟩
  · rintro ⟨h1, h2⟩
    rw [← h2]
    exact civilAt_of h1 off

theorem fieldsAt_of {c : Civil} (hc : RealCivil c) (off : Int) :
    fieldsAt (unixUtc c - off) off = ((c.year : Int), c.month, c.day, c.hour, c.min, c.sec) := by
  have h := civilAt_of hc off
  unfold civilAt at h
  rcases hf : fieldsAt (unixUtc c - off) off with ⟨y, m, d, hh, mi, s⟩
  simp only [hf] at h
  split at h
  · cases h
  rename_i hy
  have h := Option.some.inj h
  subst h
  simp only [Prod.mk.injEq, and_true]
  omega

theorem date_in_year {d : Civil} (hd : RealCivil d) : daysToMonth d.year d.month + (d.day - 1) < yearLength d.year := by
  have h1 := hd.day; have h2 := hd.month
  rw [← yearLength_months]
  by_cases e : d.month = 12
  · rw [e] at h1 ⊢; omega
  · have := daysToMonth_mono d.year h2.1 (show d.month < 12 by omega); omega

/-- C82: the instants with a year of four digits are those from 0000-01-01T00:00:00 to 9999-12-31T23:59:59 at their offset. -/
theorem C82_four_digit_years (t off : Int) : FourDigitYear t off ↔ -62167219200 ≤ t + off ∧ t + off < 253402300800 := by
  have y4 : daysToYear 10000 = 3652425 := daysToYear_of (by decide)
  have ep : (secondsOf ⟨1970, 1, 1, 0, 0, 0⟩ : Int) = 62167219200 := by
    rw [jan1_seconds, daysToYear_of (y := 1970) (k := 719528) (by decide)]; decide
  constructor
  · rintro ⟨c, hc, hy, rfl⟩
    have hd := date_in_year hc
    have hm : daysToYear c.year + yearLength c.year ≤ 3652425 := y4 ▸ daysToYear_mono hy
    have a1 := hc.hour; have a2 := hc.min; have a3 := hc.sec
    unfold unixUtc
    rw [ep]
    have : secondsOf c < 3652425 * 86400 := by unfold secondsOf; omega
    omega
  · rintro ⟨h1, h2⟩
    have hy : 0 ≤ (dateOfDay ((t + off) / 86400 + 719468)).1 := dateOfDay_year (by omega)
    cases h : civilAt t off with
    | none =>
      exfalso
      unfold civilAt fieldsAt at h
      rcases hd : dateOfDay ((t + off) / 86400 + 719468) with ⟨y, m, d⟩
      rw [hd] at hy
      simp only [hd] at h
      split at h
      · rename_i hn; have hy : 0 ≤ y := hy; omega
      · cases h
    | some c =>
      obtain ⟨hc, hu⟩ := civilAt_spec h
      refine ⟨c, hc, Nat.lt_of_not_le (fun hge => ?_), by omega⟩
      have hm : 3652425 ≤ daysToYear c.year := by
        rw [← y4]
        rcases Nat.eq_or_lt_of_le hge with e | e
        · rw [← e]; exact Nat.le_refl _
        · have := daysToYear_mono e; omega
      unfold unixUtc at hu
      rw [ep] at hu
      have : 3652425 * 86400 ≤ secondsOf c := by unfold secondsOf; omega
      omega

/-- C82: the times of every certificate the tolerant parser accepts have such years, in the zones they are written in. -/
theorem C82_certificate_years {s : Bytes} {c : Civil} {z : TZone} (h : UtcText s c z ∨ GenText s c z) : FourDigitYear (instant c z) (zoneSeconds z) := by
  rcases h with ⟨_, _, hc, _, h, _⟩ | ⟨_, hc, h, _⟩
  · exact ⟨c, hc, by omega, rfl⟩
  · exact ⟨c, hc, h, rfl⟩

theorem appendIntW_two {n : Nat} (h : n < 100) : appendIntW n 2 = dd n := by
  have key : ∀ k : Fin 100, appendIntW (k.1 : Nat) 2 = dd k.1 := by decide +kernel
  exact key ⟨n, h⟩

theorem digitsRev_step {f n : Nat} (h : n ≤ f) : digitsRev 10 f n = if n < 10 then [n] else n % 10 :: digitsRev 10 (f - 1) (n / 10) := by
  cases f with
  | zero => rw [if_pos (by omega), digitsRev]; congr 1; omega
  | succ f => rw [digitsRev]; rfl

theorem hexDigit_dig {n : Nat} (h : n < 10) : hexDigit n = UInt8.ofNat (48 + n) := by rw [hexDigit, if_pos h]

theorem appendIntW_four {n : Nat} (h : n < 10000) : appendIntW n 4 = dd (n / 100) ++ dd (n % 100) := by
  unfold appendIntW dd
  rw [if_neg (by omega), List.nil_append, Int.natAbs_natCast]
  have e1 : n % 100 / 10 = n / 10 % 10 := by omega
  have e2 : n % 100 % 10 = n % 10 := by omega
  have e3 : n / 100 / 10 = n / 1000 := by omega
  have e4 : n / 10 / 10 = n / 100 := by omega
  rw [e1, e2, e3]
  by_cases h1 : n < 10
  · rw [digitsRev_step (Nat.le_refl _), if_pos h1]
    have a1 : n / 1000 = 0 := by omega
    have a2 : n / 100 % 10 = 0 := by omega
    have a3 : n / 10 % 10 = 0 := by omega
    have a4 : n % 10 = n := by omega
    rw [a1, a2, a3, a4, ← hexDigit_dig h1]; rfl
  rw [digitsRev_step (Nat.le_refl _), if_neg h1, digitsRev_step (by omega)]
  by_cases h2 : n / 10 < 10
  · have a1 : n / 1000 = 0 := by omega
    have a2 : n / 100 % 10 = 0 := by omega
    have a3 : n / 10 % 10 = n / 10 := by omega
    rw [if_pos h2, a1, a2, a3, ← hexDigit_dig (n := n % 10) (by omega), ← hexDigit_dig h2]; rfl
  rw [if_neg h2, digitsRev_step (by omega), e4]
  by_cases h3 : n / 100 < 10
  · have a1 : n / 1000 = 0 := by omega
    have a2 : n / 100 % 10 = n / 100 := by omega
    rw [if_pos h3, a1, a2, ← hexDigit_dig (n := n % 10) (by omega), ← hexDigit_dig (n := n / 10 % 10) (by omega), ← hexDigit_dig h3]; rfl
  rw [if_neg h3, digitsRev_step (by omega), if_pos (by omega), e3]
  rw [← hexDigit_dig (n := n % 10) (by omega), ← hexDigit_dig (n := n / 10 % 10) (by omega), ← hexDigit_dig (n := n / 100 % 10) (by omega),
    ← hexDigit_dig (n := n / 1000) (by omega)]
  rfl

theorem day_lt {c : Civil} (hc : RealCivil c) : c.day < 100 := by
  have := hc.day.2; have := monthLength_le c.year c.month; omega

theorem dateParts {c : Civil} (hc : RealCivil c) (h : c.year < 10000) :
    appendIntW c.year 4 ++ b!"-" ++ appendIntW c.month 2 ++ b!"-" ++ appendIntW c.day 2 = dateText c := by
  have := hc.month
  rw [appendIntW_four h, appendIntW_two (by omega), appendIntW_two (day_lt hc)]
  rfl

theorem clockParts {c : Civil} (hc : RealCivil c) :
    appendIntW c.hour 2 ++ b!":" ++ appendIntW c.min 2 ++ b!":" ++ appendIntW c.sec 2 = clockTextColons c := by
  have := hc.hour; have := hc.min; have := hc.sec
  rw [appendIntW_two (by omega), appendIntW_two (by omega), appendIntW_two (by omega)]
  rfl

theorem rfcZone_of {off : Int} (h60 : (60 : Int) ∣ off) (hoff : off.natAbs < 360000) :
    RfcZone off (if off = 0 then b!"Z"
       else (if Int.tdiv off 60 < 0 then b!"-" else b!"+") ++ appendIntW ((Int.tdiv off 60).natAbs / 60 : Nat) 2 ++ b!":" ++
         appendIntW ((Int.tdiv off 60).natAbs % 60 : Nat) 2) := by
  by_cases h0 : off = 0
  · subst h0; exact .z
  · rw [if_neg h0]
    obtain ⟨k, rfl⟩ := h60
    have e : Int.tdiv (60 * k) 60 = k := Int.mul_tdiv_cancel_left k (by decide)
    rw [e, appendIntW_two (by omega), appendIntW_two (by omega)]
    by_cases hn : k < 0
    · rw [if_pos hn]
      have := RfcZone.west (k.natAbs / 60) (k.natAbs % 60) (by omega) (by omega) (by omega)
      have e2 : -(3600 * ((k.natAbs / 60 : Nat) : Int) + 60 * ((k.natAbs % 60 : Nat) : Int)) = 60 * k := by omega
      rw [e2] at this
      exact this
    · rw [if_neg hn]
      have := RfcZone.east (k.natAbs / 60) (k.natAbs % 60) (by omega) (by omega) (by omega)
      have e2 : 3600 * ((k.natAbs / 60 : Nat) : Int) + 60 * ((k.natAbs % 60 : Nat) : Int) = 60 * k := by omega
      rw [e2] at this
      exact this

theorem rfc3339_text {t off : Int} (h : FourDigitYear t off) (h60 : (60 : Int) ∣ off) (hoff : off.natAbs < 360000) : Rfc3339 t off (rfc3339 t off) := by
  obtain ⟨c, hc, hy, rfl⟩ := h
  refine ⟨c, _, hc, hy, rfl, rfcZone_of h60 hoff, ?_⟩
  unfold rfc3339
  rw [fieldsAt_of hc off]
  simp only
  rw [← dateParts hc hy, ← clockParts hc]
  simp only [List.append_assoc]

theorem plainUtc_text {t : Int} (h : FourDigitYear t 0) : PlainUtc t (timeStringUtc t) := by
  obtain ⟨c, hc, hy, rfl⟩ := h
  refine ⟨c, hc, hy, by omega, ?_⟩
  unfold timeStringUtc
  rw [fieldsAt_of hc 0]
  simp only
  rw [← dateParts hc hy, ← clockParts hc]
  simp only [List.append_assoc]

theorem dd_eq {a b : Nat} {x y : Bytes} (ha : a < 100) (hb : b < 100) (h : dd a ++ x = dd b ++ y) : a = b ∧ x = y := by
  unfold dd at h
  simp only [List.cons_append, List.nil_append, List.cons.injEq] at h
  have h1 := congrArg UInt8.toNat h.1
  have h2 := congrArg UInt8.toNat h.2.1
  rw [dig_toNat (by omega), dig_toNat (by omega)] at h1
  rw [dig_toNat (by omega), dig_toNat (by omega)] at h2
  exact ⟨by omega, h.2.2⟩

theorem dd_eq1 {a b : Nat} (ha : a < 100) (hb : b < 100) (h : dd a = dd b) : a = b :=
  (dd_eq (x := []) (y := []) ha hb (by rw [h])).1

theorem sep_eq {x y u : Bytes} (h : u ++ x = u ++ y) : x = y := List.append_cancel_left h

theorem civil_of_texts {c c' : Civil} (hc : RealCivil c) (hc' : RealCivil c') (h1 : c.year < 10000) (h2 : c'.year < 10000)
    (hd : dateText c = dateText c') (ht : clockTextColons c = clockTextColons c') : c = c' := by
  unfold dateText at hd
  unfold clockTextColons at ht
  have a1 := hc.month; have a2 := hc'.month; have a3 := day_lt hc; have a4 := day_lt hc'
  have b1 := hc.hour; have b2 := hc'.hour; have b3 := hc.min; have b4 := hc'.min; have b5 := hc.sec; have b6 := hc'.sec
  simp only [List.append_assoc] at hd ht
  obtain ⟨g1, hd⟩ := dd_eq (by omega) (by omega) hd
  obtain ⟨g2, hd⟩ := dd_eq (by omega) (by omega) hd
  obtain ⟨g3, hd⟩ := dd_eq (by omega) (by omega) (sep_eq hd)
  have g4 := dd_eq1 (by omega) (by omega) (sep_eq hd)
  obtain ⟨g5, ht⟩ := dd_eq (by omega) (by omega) ht
  obtain ⟨g6, ht⟩ := dd_eq (by omega) (by omega) (sep_eq ht)
  have g7 := dd_eq1 (by omega) (by omega) (sep_eq ht)
  have gy : c.year = c'.year := by omega
  clear hd ht g1 g2 hc hc'
  cases c; cases c'
  simp only at gy g3 g4 g5 g6 g7
  subst gy g3 g4 g5 g6 g7
  rfl

theorem dateText_len (c : Civil) : (dateText c).length = 10 := rfl
theorem clockTextColons_len (c : Civil) : (clockTextColons c).length = 8 := rfl

theorem zone_prefix {off off' : Int} {z z' x x' : Bytes} (hz : RfcZone off z) (hz' : RfcZone off' z') (h : z ++ x = z' ++ x') : off = off' ∧ x = x' := by
  have N : ∀ {x y : UInt8} {a b : Bytes}, x :: a = y :: b → x = y := fun h => (List.cons.inj h).1
  have Z : ∀ {h m h' m' : Nat} {x x' : Bytes}, h < 100 → m < 60 → h' < 100 → m' < 60 →
      dd h ++ (b!":" ++ (dd m ++ x)) = dd h' ++ (b!":" ++ (dd m' ++ x')) → h = h' ∧ m = m' ∧ x = x' := by
    intro h m h' m' x x' a1 a2 a3 a4 e
    obtain ⟨e1, e⟩ := dd_eq a1 a3 e
    obtain ⟨e2, e3⟩ := dd_eq (by omega) (by omega) (sep_eq e)
    exact ⟨e1, e2, e3⟩
  cases hz with
  | z =>
    cases hz' with
    | z => exact ⟨rfl, sep_eq h⟩
    | east h' m' _ _ _ => exact absurd (N h) (by decide)
    | west h' m' _ _ _ => exact absurd (N h) (by decide)
  | east hh m q1 q2 q3 =>
    cases hz' with
    | z => exact absurd (N h) (by decide)
    | east h' m' r1 r2 r3 =>
      simp only [List.append_assoc] at h
      obtain ⟨rfl, rfl, e⟩ := Z q1 q2 r1 r2 (sep_eq h)
      exact ⟨rfl, e⟩
    | west h' m' r1 r2 r3 => exact absurd (N h) (by decide)
  | west hh m q1 q2 q3 =>
    cases hz' with
    | z => exact absurd (N h) (by decide)
    | east h' m' r1 r2 r3 => exact absurd (N h) (by decide)
    | west h' m' r1 r2 r3 =>
      simp only [List.append_assoc] at h
      obtain ⟨rfl, rfl, e⟩ := Z q1 q2 r1 r2 (sep_eq h)
      exact ⟨rfl, e⟩

theorem rfc_prefix {t t' off off' : Int} {s s' x x' : Bytes} (h : Rfc3339 t off s) (h' : Rfc3339 t' off' s') (he : s ++ x = s' ++ x') :
    t = t' ∧ off = off' ∧ x = x' := by
  obtain ⟨c, z, hc, hy, ht, hz, rfl⟩ := h
  obtain ⟨c', z', hc', hy', ht', hz', rfl⟩ := h'
  simp only [List.append_assoc] at he
  obtain ⟨e1, he⟩ := List.append_inj he (by rw [dateText_len, dateText_len])
  obtain ⟨e2, e3⟩ := List.append_inj (sep_eq he) (by rw [clockTextColons_len, clockTextColons_len])
  have := civil_of_texts hc hc' hy hy' e1 e2
  subst this
  obtain ⟨ho, hx⟩ := zone_prefix hz hz' e3
  exact ⟨by omega, ho, hx⟩

/-- C82: an RFC 3339 text has one meaning. -/
theorem C82_rfc3339_one_meaning {t t' off off' : Int} {s : Bytes} (h : Rfc3339 t off s) (h' : Rfc3339 t' off' s) : t = t' ∧ off = off' := by
  obtain ⟨h1, h2, _⟩ := rfc_prefix (x := []) (x' := []) h h' rfl
  exact ⟨h1, h2⟩

/-! ## Certificates -/

/-- C82: the description of a certificate in one line is its fingerprint, its validity, its subject and its issuer, in this order. -/
theorem C82_description (h : HashEnv) (c : Cert) {o1 o2 : Int} (hb : FourDigitYear c.notBefore o1) (ha : FourDigitYear c.notAfter o2)
    (m1 : (60 : Int) ∣ o1) (m2 : (60 : Int) ∣ o2) (l1 : o1.natAbs < 360000) (l2 : o2.natAbs < 360000) :
    DescribesCert (h.sha1 c.raw) c.notBefore o1 c.notAfter o2 c.subject c.issuer (certInfoString (certDesc h c) o1 o2) := by
  refine ⟨_, _, rfc3339_text hb m1 l1, rfc3339_text ha m2 l2, ?_⟩
  rw [← hexEncode_eq, ← C44_name_text, ← C44_name_text]
  rfl

theorem hexText_length (b : Bytes) : (hexText b).length = 2 * b.length := by
  unfold hexText
  induction b with
  | nil => rfl
  | cons x l ih => rw [List.flatMap_cons, List.length_append, ih, List.length_cons]; simp only [List.length_cons, List.length_nil]; omega

/-- C82: from the description of a certificate one can tell its fingerprint, its validity and what comes after them, whatever the names
    contain. -/
theorem C82_description_determines {f f' : Bytes} {nb nb' na na' o1 o1' o2 o2' : Int} {su su' is is' : PName} {s : Bytes} (hf : f.length = f'.length)
    (h : DescribesCert f nb o1 na o2 su is s) (h' : DescribesCert f' nb' o1' na' o2' su' is' s) :
    f = f' ∧ nb = nb' ∧ na = na' ∧ nameText su ++ b!", Issuer: " ++ nameText is = nameText su' ++ b!", Issuer: " ++ nameText is' := by
  obtain ⟨a, b, ha, hb, rfl⟩ := h
  obtain ⟨a', b', ha', hb', h⟩ := h'
  simp only [List.append_assoc] at h
  obtain ⟨e1, h⟩ := List.append_inj (sep_eq h) (by rw [hexText_length, hexText_length, hf])
  obtain ⟨e2, _, h⟩ := rfc_prefix ha ha' (sep_eq h)
  obtain ⟨e3, _, h⟩ := rfc_prefix hb hb' (sep_eq h)
  refine ⟨hexEncode_inj (by rw [hexEncode_eq, hexEncode_eq, e1]), e2, e3, ?_⟩
  simp only [List.append_assoc]
  exact sep_eq h

theorem label_split {a a' b b' : Bytes} (h : a ++ b!", Issuer: " ++ b = a' ++ b!", Issuer: " ++ b') (hl : a.length < a'.length) :
    b!", Issuer: " <:+: a' := by
  have hp : a <+: a' := by
    have h1 : a <+: a' ++ b!", Issuer: " ++ b' := ⟨b!", Issuer: " ++ b, by rw [← h, List.append_assoc]⟩
    rw [List.append_assoc] at h1
    exact List.prefix_of_prefix_length_le h1 (List.prefix_append _ _) (by omega)
  obtain ⟨u, rfl⟩ := hp
  have hu : 0 < u.length := by rw [List.length_append] at hl; omega
  simp only [List.append_assoc] at h
  have h := sep_eq h
  by_cases h10 : 10 ≤ u.length
  · have hq : b!", Issuer: " <+: u := by
      have h1 : b!", Issuer: " <+: u ++ (b!", Issuer: " ++ b') := ⟨b, h⟩
      exact List.prefix_of_prefix_length_le h1 (List.prefix_append _ _) h10
    obtain ⟨v, rfl⟩ := hq
    exact ⟨a, v, by rw [List.append_assoc]⟩
  · exfalso
    have e1 : (b!", Issuer: " ++ b)[u.length]? = some 44 := by
      rw [h, List.getElem?_append_right (Nat.le_refl _), Nat.sub_self]; rfl
    rw [List.getElem?_append_left (show u.length < (b!", Issuer: ").length by show u.length < 10; omega)] at e1
    have key : ∀ k : Fin 10, 0 < k.1 → (b!", Issuer: ")[k.1]? ≠ some 44 := by decide
    exact key ⟨u.length, by omega⟩ hu e1

/-- C82: subject and issuer are told apart as well if no subject contains the label of the issuer. -/
theorem C82_description_names {f f' : Bytes} {nb nb' na na' o1 o1' o2 o2' : Int} {su su' is is' : PName} {s : Bytes} (hf : f.length = f'.length)
    (h : DescribesCert f nb o1 na o2 su is s) (h' : DescribesCert f' nb' o1' na' o2' su' is' s)
    (hs : ¬ b!", Issuer: " <:+: nameText su) (hs' : ¬ b!", Issuer: " <:+: nameText su') :
    nameText su = nameText su' ∧ nameText is = nameText is' := by
  obtain ⟨_, _, _, e⟩ := C82_description_determines hf h h'
  have hl : (nameText su).length = (nameText su').length :=
    Nat.le_antisymm (Nat.le_of_not_lt fun h => hs (label_split e.symm h)) (Nat.le_of_not_lt fun h => hs' (label_split e h))
  simp only [List.append_assoc] at e
  obtain ⟨e1, e2⟩ := List.append_inj e hl
  exact ⟨e1, sep_eq e2⟩

/-- C82: without that, the description does not say who issued the certificate: a subject chosen for it moves the label. -/
theorem C82_description_ambiguous : ∀ c0 : Cert, ∃ c c' : Cert, c.raw = c0.raw ∧ c'.raw = c0.raw ∧ pkixNameToString c.issuer ≠ pkixNameToString c'.issuer ∧
    pkixNameToString c.subject ≠ pkixNameToString c'.subject ∧
    ∀ h o1 o2, certInfoString (certDesc h c) o1 o2 = certInfoString (certDesc h c') o1 o2 := by
  intro c0
  refine ⟨{ c0 with subject := { commonName := b!"a, Issuer: CN=b" }, issuer := { commonName := b!"c" } },
    { c0 with subject := { commonName := b!"a" }, issuer := { commonName := b!"b, Issuer: CN=c" } }, rfl, rfl, ?_, ?_, ?_⟩
  · show pkixNameToString { commonName := b!"c" } ≠ pkixNameToString { commonName := b!"b, Issuer: CN=c" }; decide
  · show pkixNameToString { commonName := b!"a, Issuer: CN=b" } ≠ pkixNameToString { commonName := b!"a" }; decide
  intro h o1 o2
  unfold certInfoString
  have e : ∀ x y z w p : Bytes, y ++ b!", Issuer: " ++ z = w ++ b!", Issuer: " ++ p →
      x ++ b!", Subject: " ++ y ++ b!", Issuer: " ++ z = x ++ b!", Subject: " ++ w ++ b!", Issuer: " ++ p := by
    intro x y z w p e
    simp only [List.append_assoc] at e ⊢
    rw [e]
  refine e _ _ _ _ _ ?_
  show pkixNameToString { commonName := b!"a, Issuer: CN=b" } ++ b!", Issuer: " ++ pkixNameToString { commonName := b!"c" } =
    pkixNameToString { commonName := b!"a" } ++ b!", Issuer: " ++ pkixNameToString { commonName := b!"b, Issuer: CN=c" }
  decide

/-! ## Lineage nodes -/

theorem dumpNode_some {h : HashEnv} {depth : Nat} {n : LNode} {texts : List Bytes} (hd : dumpNode h depth n = some texts) :
    ∃ caps, capsEval depth n.flags = some caps ∧ texts =
    [b!"Cert " ++ hexEncode (h.sha1 n.cert.raw) ++ b!":\n",
     b!"  ValidFrom: " ++ timeStringUtc n.cert.notBefore ++ b!"\n  ValidTo: " ++ timeStringUtc n.cert.notAfter ++ b!"\n",
     b!"  Issuer: " ++ pkixNameToString n.cert.issuer ++ b!"\n  Subject: " ++ pkixNameToString n.cert.subject ++ b!"\n",
     b!"ParentSigAlgorithm: " ++ algoString n.parentAlgo ++ b!"\n",
     b!"SigAlgorithm: " ++ algoString n.algo ++ b!"\n",
     b!"Signature: " ++ hexEncode (h.sha1 n.signature) ++ b!"\n",
     b!"Flags: 0x" ++ fmtHexMin 4 n.flags ++ b!" (" ++ caps ++ b!")\n"] := by
  unfold dumpNode at hd
  cases hc : capsEval depth n.flags with
  | none => rw [hc] at hd; cases hd
  | some caps => rw [hc] at hd; exact ⟨caps, rfl, (Option.some.inj hd).symm⟩

/-- C82: what is printed for a lineage node is its description, with the text of its capabilities. -/
theorem C82_dump_text {h : HashEnv} {depth : Nat} {n : LNode} {texts : List Bytes} (hb : FourDigitYear n.cert.notBefore 0) (ha : FourDigitYear n.cert.notAfter 0)
    (hd : dumpNode h depth n = some texts) :
    ∃ caps, CapsReturns n.flags caps ∧ DescribesNode (h.sha1 n.cert.raw) (h.sha1 n.signature) n caps texts.flatten := by
  obtain ⟨caps, hc, rfl⟩ := dumpNode_some hd
  refine ⟨caps, ⟨depth, hc⟩, _, _, _, _, _, plainUtc_text hb, plainUtc_text ha, C47_algorithm_text _ _ rfl, C47_algorithm_text _ _ rfl,
    fmtHexMin_text 4 _, ?_⟩
  have e1 : (b!"\n  ValidTo: ") = b!"\n" ++ b!"  ValidTo: " := rfl
  have e2 : (b!"\n  Subject: ") = b!"\n" ++ b!"  Subject: " := rfl
  rw [e1, e2]
  simp only [List.flatten_cons, List.flatten_nil, List.append_assoc, List.append_nil, ← hexEncode_eq, C44_name_text]

/-- C82: printing a lineage node ends the program if and only if the node has a capability without a name. -/
theorem C82_dump_dies_iff (h : HashEnv) (n : LNode) : (∀ depth, dumpNode h depth n = none) ↔ UnknownCap n.flags := by
  constructor
  · intro hd
    refine Classical.byContradiction (fun hu => ?_)
    obtain ⟨s, ⟨depth, hs⟩, _⟩ := C47_caps_text_partial hu
    have := hd depth
    unfold dumpNode at this
    rw [hs] at this
    cases this
  · intro hu depth
    cases hd : dumpNode h depth n with
    | none => rfl
    | some t =>
      obtain ⟨caps, hc, _⟩ := dumpNode_some hd
      exact absurd ⟨depth, hc⟩ (C47_caps_unknown_never_returns hu caps)

/-- C82: a writer that fails has been given the beginning of the text, and its error is returned; without an error all of it was written. -/
theorem C82_dump_writer (k : Nat) (texts : List Bytes) :
    (dumpTo k texts).1 <+: texts.flatten ∧ ((dumpTo k texts).2 = false ↔ texts.length ≤ k) ∧
    ((dumpTo k texts).2 = false → (dumpTo k texts).1 = texts.flatten) := by
  unfold dumpTo
  refine ⟨⟨(texts.drop k).flatten, by rw [← List.flatten_append, List.take_append_drop]⟩, by simp, ?_⟩
  intro h
  have h : texts.length ≤ k := by simpa using h
  show (texts.take k).flatten = _
  rw [List.take_of_length_le h]

theorem dumpNode_of {h : HashEnv} {depth : Nat} {caps : Bytes} (n : LNode) (hc : capsEval depth n.flags = some caps) : dumpNode h depth n = some
    [b!"Cert " ++ hexEncode (h.sha1 n.cert.raw) ++ b!":\n",
     b!"  ValidFrom: " ++ timeStringUtc n.cert.notBefore ++ b!"\n  ValidTo: " ++ timeStringUtc n.cert.notAfter ++ b!"\n",
     b!"  Issuer: " ++ pkixNameToString n.cert.issuer ++ b!"\n  Subject: " ++ pkixNameToString n.cert.subject ++ b!"\n",
     b!"ParentSigAlgorithm: " ++ algoString n.parentAlgo ++ b!"\n",
     b!"SigAlgorithm: " ++ algoString n.algo ++ b!"\n",
     b!"Signature: " ++ hexEncode (h.sha1 n.signature) ++ b!"\n",
     b!"Flags: 0x" ++ fmtHexMin 4 n.flags ++ b!" (" ++ caps ++ b!")\n"] := by
  unfold dumpNode
  rw [hc]

theorem pkixNameToString_extend (n : PName) (x : Bytes) (hn : n.commonName ≠ []) :
    pkixNameToString { n with commonName := n.commonName ++ x } = pkixNameToString n ++ x := by
  unfold pkixNameToString
  simp only
  generalize nameField (b!"C=") n.country ++ nameField (b!"ST=") n.province ++ nameField (b!"L=") n.locality ++ nameField (b!"O=") n.org ++
    nameField (b!"OU=") n.orgUnit = p
  have h0 : n.commonName.length ≠ 0 := fun h => hn (List.length_eq_zero_iff.1 h)
  have take2 : ∀ q : Bytes, (q ++ b!", ").take ((q ++ b!", ").length - 2) = q := by
    intro q
    refine List.take_left' ?_
    rw [List.length_append, show (b!", ").length = 2 from rfl, Nat.add_sub_cancel]
  rw [if_pos (show (n.commonName ++ x).length ≠ 0 by rw [List.length_append]; omega), if_pos h0,
    show p ++ (b!"CN=" ++ (n.commonName ++ x) ++ b!", ") = (p ++ (b!"CN=" ++ n.commonName) ++ x) ++ b!", " by simp only [List.append_assoc],
    show p ++ (b!"CN=" ++ n.commonName ++ b!", ") = (p ++ (b!"CN=" ++ n.commonName)) ++ b!", " by simp only [List.append_assoc],
    take2, take2, if_pos (by simp), if_pos (by simp)]

/-- C82: names are printed as they are, line ends included, so the text for one lineage node can be the text for two: a node with a common
    name chosen for it is printed as any one node followed by any other. -/
theorem C82_dump_forged {h : HashEnv} {depth : Nat} {n1 n2 : LNode} {t1 t2 : List Bytes} (hn : n1.cert.subject.commonName ≠ [])
    (h1 : dumpNode h depth n1 = some t1) (h2 : dumpNode h depth n2 = some t2) :
    ∃ cn t, dumpNode h depth { n2 with cert := { n1.cert with subject := { n1.cert.subject with commonName := cn } } } = some t ∧
      t.flatten = t1.flatten ++ t2.flatten := by
  obtain ⟨c1, k1, e1⟩ := dumpNode_some h1
  obtain ⟨c2, k2, e2⟩ := dumpNode_some h2
  refine ⟨n1.cert.subject.commonName ++ (b!"\n" ++ (b!"ParentSigAlgorithm: " ++ (algoString n1.parentAlgo ++ (b!"\n" ++
    (b!"SigAlgorithm: " ++ (algoString n1.algo ++ (b!"\n" ++ (b!"Signature: " ++ (hexEncode (h.sha1 n1.signature) ++ (b!"\n" ++
     (b!"Flags: 0x" ++ (fmtHexMin 4 n1.flags ++ (b!" (" ++ (c1 ++ (b!")\n" ++ (b!"Cert " ++ (hexEncode (h.sha1 n2.cert.raw) ++ (b!":\n" ++
     (b!"  ValidFrom: " ++ (timeStringUtc n2.cert.notBefore ++ (b!"\n  ValidTo: " ++ (timeStringUtc n2.cert.notAfter ++ (b!"\n" ++
     (b!"  Issuer: " ++ (pkixNameToString n2.cert.issuer ++ (b!"\n  Subject: " ++ pkixNameToString n2.cert.subject)))))))))))))))))))))))))),
     _, dumpNode_of _ k2, ?_⟩
  subst e1 e2
  simp only [List.flatten_cons, List.flatten_nil, List.append_assoc, List.append_nil, pkixNameToString_extend _ _ hn]

/-! ## Cases -/

/-- The times of the description in the comment of the code, as they are printed: the layout differs from the comment's. -/
example : rfc3339 1438761713 0 = b!"2015-08-05T08:01:53Z" ∧ timeStringUtc 1438761713 = b!"2015-08-05 08:01:53 +0000 UTC" := by decide +kernel
example : rfc3339 1438761713 (-12600) = b!"2015-08-05T04:31:53-03:30" := by decide +kernel
example : FourDigitYear 1438761713 0 := (C82_four_digit_years _ _).2 (by decide)
example : civilAt 951782400 0 = some ⟨2000, 2, 29, 0, 0, 0⟩ ∧ civilAt (-62167219200) 0 = some ⟨0, 1, 1, 0, 0, 0⟩ ∧ civilAt (-62167219201) 0 = none := by decide +kernel

/-- A lineage node with a common name, whose capabilities have names, as `C82_dump_text` and `C82_dump_forged` ask for. -/
example : ∃ n : LNode, n.cert.subject.commonName ≠ [] ∧ FourDigitYear n.cert.notBefore 0 ∧ FourDigitYear n.cert.notAfter 0 ∧
    ∀ h, ∃ t, dumpNode h 1 n = some t :=
  ⟨⟨{ raw := [1], spki := [2], key := ⟨.rsa, 0, []⟩, subject := { commonName := b!"x" }, notBefore := 1438761713, notAfter := 2385619313 }, 0, 0x0103, [3], 19⟩,
    by decide, (C82_four_digit_years _ _).2 (by decide), (C82_four_digit_years _ _).2 (by decide), fun _ => ⟨_, dumpNode_of _ (show _ = some (b!"InstalledData|SharedUserId|Auth") by decide)⟩⟩

/-- And one that ends the program. -/
example : UnknownCap 39 := ⟨5, by decide, by decide, by decide⟩

/-! ## Times that are written and read -/

/-- C75: the condition on the times of the written certificates is met by all times in UTC, without an assumption on how their dates are
    computed. -/
theorem C75_unix_times {te : TimeEnv} {utf16 : List Nat → Bytes} (s : Bool) (mp : MP) (t : Int)
    (hk : mp.hidesKind → mp.timeType ≠ 24 ∧ ∀ c, RealCivil c → unixUtc c = t → 1950 ≤ c.year ∧ c.year < 2050) :
    LeafFits ⟨goUtf8Valid, utf16, goUtcTime te, goGenTime⟩ (utcMarEnv s (fun t => civilAt t 0)) mp .time t := by
  have hciv : ∀ t c, civilAt t 0 = some c → RealCivil c ∧ unixUtc c = t := by
    intro t c h
    obtain ⟨h1, h2⟩ := civilAt_spec h
    exact ⟨h1, by omega⟩
  refine C75_utc_times hciv s mp t (fun h => ⟨(hk h).1, fun c hc => ?_⟩)
  obtain ⟨h1, h2⟩ := hciv t c hc
  exact (hk h).2 c h1 h2

end Apk
