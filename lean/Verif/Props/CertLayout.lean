import Verif.Spec.CertLayout
import Verif.Props.Time
import Verif.Props.Curve
/-! # C67: the validity of certificates -/
namespace Apk
open Spec

theorem present23 (s : Bytes) : FieldPresent .time {} ⟨0, 23, s.length, false⟩ := by
  refine ⟨.inr rfl, ?_⟩
  show Ty.time = .rawValue ∨ ((0 : Nat) = 0 ∧ ((23 : Nat) = 23 ∨ (23 : Nat) = 24))
  exact .inr ⟨rfl, .inl rfl⟩

theorem present24 (s : Bytes) : FieldPresent .time {} ⟨0, 24, s.length, false⟩ := by
  refine ⟨.inr rfl, ?_⟩
  show Ty.time = .rawValue ∨ ((0 : Nat) = 0 ∧ ((24 : Nat) = 23 ∨ (24 : Nat) = 24))
  exact .inr ⟨rfl, .inr rfl⟩

/-- C67: a time field is read exactly if it is a UTCTime or GeneralizedTime element, and as the time its text stands for. -/
theorem C67_time_field_iff (te : TimeEnv) (t : Int) (b rest : Bytes) :
    Reads (goAsnEnv te) .time {} t b rest ↔ ∃ e, TimeElem te t e ∧ b = e ++ rest := by
  constructor
  · intro h
    rcases (reads_prim (t := .time) (by simp) (by simp) (by simp)).1 h with ⟨tl, inner, hl, hp⟩ | ⟨h, _⟩ | ⟨h, _⟩
    · obtain ⟨hdr, e, h1, h3, d1, d2⟩ := hl.plain_inv rfl
      have con : tl.isCompound = false := by
        rcases d1 with h | h
        · cases h
        · exact h
      have c2 : tl.cls = 0 ∧ (tl.tag = 23 ∨ tl.tag = 24) := by
        rcases d2 with h | h
        · cases h
        · exact h
      have he : Elem tl.cls tl.tag tl.isCompound inner (hdr ++ inner) := ⟨hdr, by rw [h3]; exact h1, rfl⟩
      rw [con, c2.1] at he
      refine ⟨hdr ++ inner, ?_, e⟩
      have hp : (isGeneralized {} tl ∧ goGenTime inner = some t) ∨ (¬ isGeneralized {} tl ∧ goUtcTime te inner = some t) := hp
      rcases hp with ⟨hg, hp⟩ | ⟨hg, hp⟩
      · have ht : tl.tag = 24 := by
          rcases hg with h | h
          · cases h
          · exact h.2
        rw [ht] at he
        obtain ⟨c, z, k1, k2⟩ := (goGenTime_iff _ _).1 hp
        exact .inr ⟨inner, c, z, he, k1, k2⟩
      · have ht : tl.tag = 23 := by
          rcases c2.2 with h | h
          · exact h
          · exact absurd (.inr ⟨c2.1, h⟩) hg
        rw [ht] at he
        obtain ⟨c, z, k1, k2⟩ := (goUtcTime_iff te _ _).1 hp
        exact .inl ⟨inner, c, z, he, k1, k2⟩
    · exact absurd (absent_optional h) (by simp)
    · cases h
  · rintro ⟨e, h, rfl⟩
    rcases h with ⟨s, c, z, he, k1, k2⟩ | ⟨s, c, z, he, k1, k2⟩
    · refine (reads_prim (t := .time) (by simp) (by simp) (by simp)).2 (.inl ⟨_, _, he.located rfl (present23 s) rest, ?_⟩)
      refine .inr ⟨?_, (goUtcTime_iff te _ _).2 ⟨c, z, k1, k2⟩⟩
      rintro (h | h)
      · cases h
      · exact absurd (show (23 : Nat) = 24 from h.2) (by decide)
    · refine (reads_prim (t := .time) (by simp) (by simp) (by simp)).2 (.inl ⟨_, _, he.located rfl (present24 s) rest, ?_⟩)
      exact .inl ⟨.inr ⟨rfl, rfl⟩, (goGenTime_iff _ _).2 ⟨c, z, k1, k2⟩⟩

theorem reads_sequence_inv {env : AsnEnv} {raw : Bool} {fs : Fields} {v : (Ty.struct raw fs).interp} {b rest : Bytes}
    (h : Reads env (.struct raw fs) {} v b rest) : ∃ inner e, ReadsAll env fs v.2 inner ∧ Elem 0 16 true inner e ∧ b = e ++ rest := by
  rw [Reads] at h
  rcases h with ⟨tl, inner, hl, h, _⟩ | ⟨h, _⟩
  · obtain ⟨hdr, e, h1, h3, d1, d2⟩ := hl.plain_inv rfl
    have con : tl.isCompound = true := by
      rcases d1 with h | h
      · cases h
      · exact h
    have c2 : tl.cls = 0 ∧ tl.tag = 16 := by
      rcases d2 with h | h
      · cases h
      · exact h
    refine ⟨inner, hdr ++ inner, h, ⟨hdr, ?_, rfl⟩, e⟩
    rw [h3, ← con, ← c2.1, ← c2.2]; exact h1
  · exact absurd (absent_optional h) (by simp)

theorem reads_big_inv {env : AsnEnv} {i : Option Int} {b rest : Bytes} (h : Reads env .bigInt {} i b rest) :
    ∃ e n, i = some n ∧ IntElem n e ∧ b = e ++ rest := by
  rcases (reads_prim (t := .bigInt) (by simp) (by simp) (by simp)).1 h with ⟨tl, inner, hl, hp⟩ | ⟨h, _⟩ | ⟨h, _⟩
  · obtain ⟨hdr, e, h1, h3, d1, d2⟩ := hl.plain_inv rfl
    have con : tl.isCompound = false := by
      rcases d1 with h | h
      · cases h
      · exact h
    have c2 : tl.cls = 0 ∧ tl.tag = 2 := by
      rcases d2 with h | h
      · cases h
      · exact h
    obtain ⟨n, p1, p2, p3⟩ := hp
    refine ⟨hdr ++ inner, n, p1, ⟨inner, p2, p3, hdr, ?_, rfl⟩, e⟩
    rw [h3, ← con, ← c2.1, ← c2.2]; exact h1
  · exact absurd (absent_optional h) (by simp)
  · cases h

/-- A field that is a number takes bytes from the front, with any parameters. -/
theorem reads_int_front {env : AsnEnv} {fp : FP} {i : Int} {b rest : Bytes} (h : Reads env .int fp i b rest) : ∃ front, b = front ++ rest := by
  rcases (reads_prim (t := .int) (by simp) (by simp) (by simp)).1 h with ⟨tl, inner, hl, _⟩ | ⟨_, _, h⟩ | ⟨h, _⟩
  · cases hl with
    | plain => exact ⟨_, rfl⟩
    | explicit => exact ⟨_, by rw [← List.append_assoc]⟩
    | explicitRaw => exact ⟨_, rfl⟩
  · exact ⟨[], h.symm⟩
  · cases h

/-- C67: in an accepted certificate the recorded serial number, the recorded times of validity, issuer, subject and key info are those in
    their places. -/
theorem C67_certificate_layout {te : TimeEnv} {env : Env1} {b : Bytes} {cert : Cert} (h : (concreteEnv1 (goCertEnv te) env).parseCertAndr b = some cert) :
    ∃ issuer subject spki, CertLayout te b cert.serial cert.notBefore cert.notAfter issuer subject spki ∧
      NameIs (goAsnEnv te) issuer cert.issuer ∧ NameIs (goAsnEnv te) subject cert.subject := by
  obtain ⟨k, hc⟩ := C65_certificate_iff.1 h
  obtain ⟨tbs, v0, spki, s0, a0, o0, version, nb, na, ser, sigOid, keyOid, outerOid, sigParams, keyParams, outerParams, issuer, subject, keyBits, iid, sid, sg,
      exts, re, hv, e1, e2, e3, _, _, _, _, _, n1, n2, _⟩ := hc
  rw [e1, e2, e3]
  obtain ⟨i1, b1, h, x1, q1⟩ := reads_sequence_inv hv
  rw [List.append_nil] at q1
  subst q1
  obtain ⟨outer, h, _⟩ := readsAll_cons.1 h
  rw [fp_empty] at h
  obtain ⟨i2, b2, h, x2, q2⟩ := reads_sequence_inv h
  obtain ⟨r1, g1, h⟩ := readsAll_cons.1 h
  obtain ⟨ver, y1⟩ := reads_int_front g1
  obtain ⟨r2, g2, h⟩ := (readsAll_cons (t := .bigInt) (v1 := (some ser : Option Int))).1 h
  rw [fp_empty] at g2
  obtain ⟨sb, n, y2, y2', y2''⟩ := reads_big_inv g2
  cases y2
  obtain ⟨r3, g3, h⟩ := readsAll_cons.1 h
  rw [fp_empty] at g3
  obtain ⟨alg, _, y3, _⟩ := reads_local g3
  obtain ⟨r4, g4, h⟩ := (readsAll_cons (t := .rawValue)).1 h
  rw [fp_empty] at g4
  obtain ⟨y4, y4'⟩ := reads_raw_iff.1 g4
  obtain ⟨r5, g5, h⟩ := readsAll_cons.1 h
  rw [fp_empty] at g5
  obtain ⟨i5, val, g5, x5, y5⟩ := reads_sequence_inv g5
  obtain ⟨s1, g6, g7⟩ := (readsAll_cons (t := .time) (v1 := nb)).1 g5
  obtain ⟨s2, g7, _⟩ := (readsAll_cons (t := .time) (v1 := na)).1 g7
  rw [fp_empty] at g6 g7
  obtain ⟨t1, u1, w1⟩ := (C67_time_field_iff te nb _ _).1 g6
  obtain ⟨t2, u2, w2⟩ := (C67_time_field_iff te na _ _).1 g7
  obtain ⟨r6, g8, h⟩ := (readsAll_cons (t := .rawValue)).1 h
  rw [fp_empty] at g8
  obtain ⟨y6, y6'⟩ := reads_raw_iff.1 g8
  obtain ⟨r7, g9, h⟩ := readsAll_cons.1 h
  rw [fp_empty] at g9
  obtain ⟨sp, _, y7, _⟩ := reads_local g9
  refine ⟨issuer.full, subject.full, sp, ⟨b2, outer, ver, sb, alg, val, t1, t2, r7, s2, ?_, ?_, y2', ⟨_, _, _, _, y4⟩, ⟨_, _, _, _, y6⟩, ?_, u1, u2⟩, n2, n1⟩
  · rw [← q2]; exact x1
  · rw [y1, y2'', y3, y4', y5, y6', y7] at x2
    simpa only [List.append_assoc] using x2
  · rw [w1, w2] at x5
    simpa only [List.append_assoc] using x5

end Apk
