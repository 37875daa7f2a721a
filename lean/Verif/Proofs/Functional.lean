import Verif.Props.Attack
/-! # Scheme blocks determine what their signers declare

The declared certificates, algorithms and digests of a conforming scheme block depend on its bytes only, not on the SDK
range or on the other blocks. -/
namespace Apk
set_option linter.unusedSimpArgs false

theorem DigestList.unique {b : Bytes} {recs recs' : List Bytes} {a : Nat} {d d' : Bytes} (h : DigestList b recs a d)
    (h' : DigestList b recs' a d') : d = d' := by
  obtain ⟨h1, _, _, h4⟩ := h
  obtain ⟨g1, _, _, g4⟩ := h'
  have e := lpList_unique h1 g1
  subst e
  exact LastDigest.unique h4 g4

theorem SigList.unique {b : Bytes} {recs recs' : List Bytes} {a a' : Nat} {s s' : Bytes} (h : SigList b recs a s)
    (h' : SigList b recs' a' s') : a = a' ∧ s = s' := by
  obtain ⟨h1, _, h3⟩ := h
  obtain ⟨g1, _, g3⟩ := h'
  have e := lpList_unique h1 g1
  subst e
  exact h3.unique g3

theorem CertList.unique {env : Env} {b pk pk' : Bytes} {m m' : Cert} {l l' : List Cert} (h : CertList env b pk m l)
    (h' : CertList env b pk' m' l') : m :: l = m' :: l' := by
  obtain ⟨ders, h1, h2, _⟩ := h
  obtain ⟨ders', g1, g2, _⟩ := h'
  have e := lpList_unique h1 g1
  subst e
  rw [h2] at g2
  have e2 := congrArg (List.filterMap id) g2
  simpa [List.filterMap_map] using e2

theorem V2SignerOK.unique {env : Env} {m m' : Int} {p p' : Nat → Prop} {s : Bytes} {c c' : List Cert} {a a' : Nat} {d d' : Bytes}
    (h : V2SignerOK env m p s c a d) (h' : V2SignerOK env m' p' s c' a' d') : c = c' ∧ a = a' ∧ d = d' := by
  obtain ⟨sd, sg, pk, tl, sr, sig, dg, ct, at_, tl', dr, ar, mn, mo, b1, b2, b3, b4, b5, b6, b7, b8, b9, b10, b11, b12, b13, b14, b15, b16⟩ := h
  obtain ⟨sd', sg', pk', tl2, sr', sig', dg', ct', at', tl2', dr', ar', mn', mo', c1, c2, c3, c4, c5, c6, c7, c8, c9, c10, c11, c12, c13, c14, c15, c16⟩ := h'
  rw [b1] at c1
  simp only [List.append_assoc] at c1
  obtain ⟨e1, c1⟩ := lp_inj_tail b2 c2 c1
  obtain ⟨e2, c1⟩ := lp_inj_tail b3 c3 c1
  subst e1; subst e2
  rw [b5] at c5
  simp only [List.append_assoc] at c5
  obtain ⟨e3, c5⟩ := lp_inj_tail b6 c6 c5
  obtain ⟨e4, c5⟩ := lp_inj_tail b7 c7 c5
  subst e3; subst e4
  obtain ⟨e5, e6⟩ := b9.unique c9
  subst e5
  refine ⟨?_, rfl, b13.unique c13⟩
  rw [b12, c12]
  exact b11.unique c11

theorem V3SignerOK.unique {env : Env} {m m' : Int} {r r' : Int} {s : Bytes} {v v' : V3View}
    (h : V3SignerOK env m r s v) (h' : V3SignerOK env m' r' s v') : v.chain = v'.chain ∧ v.alg = v'.alg ∧ v.digest = v'.digest ∧
      v.minSdk = v'.minSdk ∧ v.maxSdk = v'.maxSdk ∧ v.signedMin = v'.signedMin ∧ v.signedMax = v'.signedMax ∧ v.lineage = v'.lineage := by
  obtain ⟨sd, mn, mx, sg, pk, tl, sr, sig, dg, ct, smin, smax, at_, tl', dr, ar, main, more, b1, b2, b3, b4, b5, b6, b7, b8, b9, b10, b11, b12, b13, b14,
    b15, b16, b17, b18, b19, b20, b21, b22, b23, b24, b25, b26, b27, b28⟩ := h
  obtain ⟨sd', mn', mx', sg', pk', tl2, sr', sig', dg', ct', smin', smax', at', tl2', dr', ar', main', more', c1, c2, c3, c4, c5, c6, c7, c8, c9, c10, c11, c12, c13, c14,
    c15, c16, c17, c18, c19, c20, c21, c22, c23, c24, c25, c26, c27, c28⟩ := h'
  rw [b1] at c1
  simp only [List.append_assoc] at c1
  obtain ⟨e1, c1⟩ := lp_inj_tail b2 c2 c1
  obtain ⟨f1, c1⟩ := List.append_inj c1 (by simp)
  obtain ⟨f2, c1⟩ := List.append_inj c1 (by simp)
  obtain ⟨e2, c1⟩ := lp_inj_tail b3 c3 c1
  subst e1; subst e2
  rw [b9] at c9
  simp only [List.append_assoc] at c9
  obtain ⟨e3, c9⟩ := lp_inj_tail b10 c10 c9
  obtain ⟨e4, c9⟩ := lp_inj_tail b11 c11 c9
  obtain ⟨f3, c9⟩ := List.append_inj c9 (by simp)
  obtain ⟨f4, c9⟩ := List.append_inj c9 (by simp)
  obtain ⟨e5, c9⟩ := lp_inj_tail b12 c12 c9
  subst e3; subst e4; subst e5
  have g1 := leBytes_inj f1 (by omega) (by omega)
  have g2 := leBytes_inj f2 (by omega) (by omega)
  have g3 := leBytes_inj f3 (by omega) (by omega)
  have g4 := leBytes_inj f4 (by omega) (by omega)
  subst g1; subst g2; subst g3; subst g4
  have e6 := (b20.unique c20).1
  have e7 := lpList_unique b26 c26
  subst e7
  refine ⟨?_, e6, ?_, by rw [b7, c7], by rw [b8, c8], by rw [b15, c15], by rw [b16, c16], b28.unique c28⟩
  · rw [b23, c23]; exact b22.unique c22
  · rw [e6] at b24
    exact b24.unique c24

/-- Two readings of one v2 block, whatever the SDK ranges and other blocks, are the same. -/
theorem V2Block.unique {env : Env} {m m' : Int} {p p' : Nat → Prop} {b : Bytes} {vs vs' : List V2View} (h : V2Block env m p b vs)
    (h' : V2Block env m' p' b vs') : vs = vs' := by
  obtain ⟨s, t, l, h1, h2, h3, h4, h5, _⟩ := h
  obtain ⟨s', t', l', g1, g2, g3, g4, g5, _⟩ := h'
  rw [h1] at g1
  obtain ⟨e, _⟩ := lp_inj_tail h2 g2 g1
  subst e
  have e := lpList_unique h3 g3
  rw [h4, g4]
  clear h1 h3 h4 g1 g3 g4
  induction l generalizing l' with
  | nil => cases l' with
    | nil => rfl
    | cons x xs => cases e
  | cons y ys ih => cases l' with
    | nil => cases e
    | cons x xs =>
      simp only [List.map_cons, List.cons.injEq] at e ⊢
      have u := h5 y (by simp)
      rw [e.1] at u
      obtain ⟨e1, e2, e3⟩ := u.unique (g5 x (by simp))
      refine ⟨?_, ih (fun p hp => h5 p (by simp [hp])) xs (fun p hp => g5 p (by simp [hp])) e.2⟩
      cases hy : y.2; cases hx : x.2
      rw [hy, hx] at e1 e2 e3
      simp only at e1 e2 e3
      subst e1; subst e2; subst e3; rfl

/-- Two readings of one v3 block, whatever the SDK ranges, are the same. -/
theorem V3Block.unique {env : Env} {m m' r r' : Int} {b : Bytes} {vs vs' : List V3View} (h : V3Block env m r b vs)
    (h' : V3Block env m' r' b vs') : vs = vs' := by
  obtain ⟨s, t, l, h1, h2, h3, h4, h5, _⟩ := h
  obtain ⟨s', t', l', g1, g2, g3, g4, g5, _⟩ := h'
  rw [h1] at g1
  obtain ⟨e, _⟩ := lp_inj_tail h2 g2 g1
  subst e
  have e := lpList_unique h3 g3
  rw [h4, g4]
  clear h1 h3 h4 g1 g3 g4
  induction l generalizing l' with
  | nil => cases l' with
    | nil => rfl
    | cons x xs => cases e
  | cons y ys ih => cases l' with
    | nil => cases e
    | cons x xs =>
      simp only [List.map_cons, List.cons.injEq] at e ⊢
      have u := h5 y (by simp)
      rw [e.1] at u
      obtain ⟨e1, e2, e3, e4, e5, e6, e7, e8⟩ := u.unique (g5 x (by simp))
      refine ⟨?_, ih (fun p hp => h5 p (by simp [hp])) xs (fun p hp => g5 p (by simp [hp])) e.2⟩
      cases hy : y.2; cases hx : x.2
      rw [hy, hx] at e1 e2 e3 e4 e5 e6 e7 e8
      simp only at e1 e2 e3 e4 e5 e6 e7 e8
      subst e1; subst e2; subst e3; subst e4; subst e5; subst e6; subst e7; subst e8; rfl

end Apk
