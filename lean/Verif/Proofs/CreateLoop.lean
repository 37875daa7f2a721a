import Verif.Proofs.CreateNames
/-! # The extensions one after the other -/
namespace Apk
namespace Cre

theorem oneExt_inv {on c : Bool} {id : List Nat} {v : Except MErr Bytes} {l : List Ext} (h : oneExt on id c v = .ok (some l)) :
    (on = false ∧ l = []) ∨ (on = true ∧ ∃ b, v = .ok b ∧ l = [(id, c, b)]) := by
  unfold oneExt at h
  cases on with
  | false => rw [if_neg (by simp)] at h; cases h; exact .inl ⟨rfl, rfl⟩
  | true =>
    rw [if_pos rfl] at h
    cases v with
    | error e => cases h
    | ok b => cases h; exact .inr ⟨rfl, b, rfl, rfl⟩

theorem extsThen_inv {x y : Go (Option (List Ext))} {l : List Ext} (h : extsThen x y = .ok (some l)) :
    ∃ a b, x = .ok (some a) ∧ y = .ok (some b) ∧ l = a ++ b := by
  unfold extsThen at h
  rcases x with p | _ | a
  · cases h
  · cases h
  · rcases y with p | _ | b
    · cases h
    · cases h
    · cases h; exact ⟨a, b, rfl, rfl, rfl⟩

theorem in_iff {id : List Nat} {extra : List Ext} : oidInExtensions id extra = true ↔ id ∈ extra.map Prod.fst := by
  rw [oidInExtensions, List.any_eq_true, List.mem_map]
  constructor
  · rintro ⟨e, h1, h2⟩; exact ⟨e, h1, by simpa using h2⟩
  · rintro ⟨e, h1, h2⟩; exact ⟨e, h1, by simpa using h2⟩

theorem loop_one {env : AsnEnv} {s s' : ExtFields} {id : List Nat} {c : Bool} {b : Bytes} (h : extFieldsStep env s id c b = .ok (some (s', false)))
    (rest : List (Bytes × List Nat × Bool × Bytes × Unit)) :
    extFieldsLoop env ([(id, c, b)].map Ext.parsed ++ rest) s = extFieldsLoop env rest s' := by
  show extFieldsLoop env (([], id, c, b, ()) :: rest) s = _
  rw [extFieldsLoop]
  simp only [h]
  simp

/-- The short values of a step. -/
def Short (l : List Ext) : Prop := ∀ e ∈ l, e.2.2.length < 2 ^ 31

theorem loop_opt {env : AsnEnv} {s s' : ExtFields} {on c : Bool} {id : List Nat} {v : Except MErr Bytes} {l : List Ext} (h : oneExt on id c v = .ok (some l))
    (hl : Short l) (rest : List (Bytes × List Nat × Bool × Bytes × Unit)) (hoff : on = false → s' = s)
    (hon : on = true → ∀ b, v = .ok b → b.length < 2 ^ 31 → extFieldsStep env s id c b = .ok (some (s', false))) :
    extFieldsLoop env (l.map Ext.parsed ++ rest) s = extFieldsLoop env rest s' := by
  rcases oneExt_inv h with ⟨h1, rfl⟩ | ⟨h1, b, hv, rfl⟩
  · rw [hoff h1]; rfl
  · exact loop_one (hon h1 b hv (hl _ (List.mem_cons_self ..))) rest

variable {env : AsnEnv} {t : ExtFields} {extra : List Ext} {l : List Ext} {s : ExtFields}

theorem usage_step (h : usageExt env t extra = .ok (some l)) (hl : Short l) (rest) (hs : s.keyUsage = 0) :
    extFieldsLoop env (l.map Ext.parsed ++ rest) s = extFieldsLoop env rest { s with keyUsage := (t.unlessIn extra).keyUsage % 512 } := by
  refine loop_opt h hl rest ?_ ?_
  · intro hoff
    have : (t.unlessIn extra).keyUsage = 0 := by
      show (if _ then _ else _) = 0
      rw [Bool.and_eq_false_iff] at hoff
      rcases hoff with h | h
      · simp at h; rw [h]; simp
      · rw [if_pos (in_iff.1 (by simpa using h))]
    rw [this]; cases s; cases hs; rfl
  · intro hon b hb hlb
    rw [Bool.and_eq_true] at hon
    have hu : (t.unlessIn extra).keyUsage = t.keyUsage := by
      show (if _ then _ else _) = _
      rw [if_neg (fun hm => by rw [in_iff.2 hm] at hon; simp at hon)]
    obtain ⟨w, hw, hu2⟩ := usage_read hb hlb
    show withValue (unmAll env .bits b) (fun b => ({ s with keyUsage := usageOf b }, false)) = _
    rw [hw, hu, ← hu2]; rfl

theorem purpose_step (h : purposeExt env t extra = .ok (some l)) (hl : Short l) (hf : ∀ o ∈ t.unknownExtKeyUsage, ValidOid o) (rest)
    (hs : s.extKeyUsage = []) (hs2 : s.unknownExtKeyUsage = []) :
    extFieldsLoop env (l.map Ext.parsed ++ rest) s = extFieldsLoop env rest { s with
      extKeyUsage := (t.unlessIn extra).extKeyUsage ++ (t.unlessIn extra).unknownExtKeyUsage.filterMap (fun o => keyPurposes.idxOf? o)
      unknownExtKeyUsage := (t.unlessIn extra).unknownExtKeyUsage.filter (fun o => o ∉ keyPurposes) } := by
  unfold purposeExt at h
  by_cases hon : ((decide (t.extKeyUsage ≠ []) || decide (t.unknownExtKeyUsage ≠ [])) && !oidInExtensions [2,5,29,37] extra) = true
  · rw [if_pos hon] at h
    cases hp : purposeOids t.extKeyUsage with
    | none => rw [hp] at h; cases h
    | some oids =>
      rw [hp] at h
      simp only at h
      obtain ⟨h1, h2⟩ := purpose_oids hp
      rw [Bool.and_eq_true] at hon
      have hn : ¬ [2,5,29,37] ∈ extra.map Prod.fst := fun hm => by rw [in_iff.2 hm] at hon; simp at hon
      have e1 : (t.unlessIn extra).extKeyUsage = t.extKeyUsage := by show (if _ then _ else _) = _; rw [if_neg hn]
      have e2 : (t.unlessIn extra).unknownExtKeyUsage = t.unknownExtKeyUsage := by show (if _ then _ else _) = _; rw [if_neg hn]
      refine loop_opt h hl rest (fun h => by cases h) (fun _ b hb hlb => ?_)
      have hr := oids_read (fun o ho => by
        rcases List.mem_append.1 ho with ho | ho
        · exact (h1 o ho).1
        · exact hf o ho) hb hlb
      show withValue (unmAll env (.slice false .oid) b) (fun us => (addUsages s us, false)) = _
      rw [hr, e1, e2]
      show Except.ok (some (addUsages s (oids ++ t.unknownExtKeyUsage), false)) = _
      rw [addUsages_eq, hs, hs2, List.filterMap_append, h2, List.filter_append]
      have : oids.filter (fun o => decide (o ∉ keyPurposes)) = [] := List.filter_eq_nil_iff.2 (fun o ho => by simp [(h1 o ho).2])
      rw [this]; rfl
  · rw [if_neg hon] at h
    cases h
    rw [Bool.not_eq_true, Bool.and_eq_false_iff] at hon
    have e : (t.unlessIn extra).extKeyUsage = [] ∧ (t.unlessIn extra).unknownExtKeyUsage = [] := by
      show (if _ then _ else _) = _ ∧ (if _ then _ else _) = _
      rcases hon with h | h
      · simp at h; rw [h.1, h.2]; simp
      · have := in_iff.1 (show oidInExtensions [2,5,29,37] extra = true by simpa using h)
        rw [if_pos this, if_pos this]; exact ⟨rfl, rfl⟩
    rw [e.1, e.2]
    show extFieldsLoop env rest s = extFieldsLoop env rest { s with extKeyUsage := [], unknownExtKeyUsage := [] }
    congr 1
    cases s; cases hs; cases hs2; rfl

/-- A list that is only there if the extension is not replaced. -/
theorem unless_list {α : Type} {id : List Nat} {x : List α} :
    (oidInExtensions id extra = true → (if id ∈ extra.map Prod.fst then [] else x) = []) ∧
    (oidInExtensions id extra = false → (if id ∈ extra.map Prod.fst then [] else x) = x) :=
  ⟨fun h => if_pos (in_iff.1 h), fun h => if_neg (fun hm => by rw [in_iff.2 hm] at h; cases h)⟩

theorem basic_step (h : basicExt env t extra = .ok (some l)) (hl : Short l) (hf : IsInt64 t.maxPathLen) (rest)
    (h1 : s.basicConstraintsValid = false) (h2 : s.isCA = false) (h3 : s.maxPathLen = 0) (h4 : s.maxPathLenZero = false) :
    extFieldsLoop env (l.map Ext.parsed ++ rest) s = extFieldsLoop env rest { s with
      basicConstraintsValid := (templateSays (t.unlessIn extra) []).basicConstraintsValid
      isCA := (templateSays (t.unlessIn extra) []).isCA
      maxPathLen := (templateSays (t.unlessIn extra) []).maxPathLen
      maxPathLenZero := (templateSays (t.unlessIn extra) []).maxPathLenZero } := by
  have hv : (t.unlessIn extra).basicConstraintsValid = (t.basicConstraintsValid && !oidInExtensions [2,5,29,19] extra) := by
    show (if _ then _ else _) = _
    cases ho : oidInExtensions [2,5,29,19] extra with
    | true => rw [if_pos (in_iff.1 ho)]; simp
    | false => rw [if_neg (fun hm => by rw [in_iff.2 hm] at ho; cases ho)]; simp
  refine loop_opt h hl rest ?_ ?_
  · intro hoff
    simp only [templateSays, hv, hoff, Bool.false_and]
    cases s; cases h1; cases h2; cases h3; cases h4; rfl
  · intro hon b hb hlb
    have hp : IsInt64 (pathLenOf t) := by
      unfold pathLenOf
      split
      · unfold IsInt64; omega
      · exact hf
    obtain ⟨c0, hr⟩ := basic_read hp hb hlb
    show withValue (unmAll env basicConstraintsTy b) (fun c => (setBasic s c.2.1 c.2.2.1, false)) = _
    rw [hr]
    show Except.ok (some (setBasic s t.isCA (pathLenOf t), false)) = _
    simp only [templateSays, hv, hon, Bool.true_and, setBasic]
    have e1 : (t.unlessIn extra).isCA = t.isCA := rfl
    have e2 : (t.unlessIn extra).maxPathLen = t.maxPathLen := rfl
    have e3 : (t.unlessIn extra).maxPathLenZero = t.maxPathLenZero := rfl
    rw [e1, e2, e3]
    have e4 : decide (pathLenOf t = 0) = (decide (t.maxPathLen = 0) && t.maxPathLenZero) := by
      unfold pathLenOf
      cases hz : t.maxPathLenZero <;> by_cases h0 : t.maxPathLen = 0 <;> simp [h0]
    rw [e4]; rfl

theorem subject_step (h : subjectKeyExt env t extra = .ok (some l)) (hl : Short l) (rest) (hs : s.subjectKeyId = []) :
    extFieldsLoop env (l.map Ext.parsed ++ rest) s = extFieldsLoop env rest { s with subjectKeyId := (t.unlessIn extra).subjectKeyId } := by
  refine loop_opt h hl rest ?_ ?_
  · intro hoff
    have : (t.unlessIn extra).subjectKeyId = [] := by
      show (if _ then _ else _) = _
      rw [Bool.and_eq_false_iff] at hoff
      rcases hoff with h | h
      · simp at h; rw [h]; simp
      · exact unless_list.1 (by simpa using h)
    rw [this, ← hs]
  · intro hon b hb hlb
    rw [Bool.and_eq_true] at hon
    have hu : (t.unlessIn extra).subjectKeyId = t.subjectKeyId := unless_list.2 (by simpa using hon.2)
    show withValue (unmAll env .octets b) (fun k => ({ s with subjectKeyId := k }, false)) = _
    rw [octets_read hb hlb, hu]; rfl

theorem authority_step {key : Bytes} (h : authorityKeyExt env key extra = .ok (some l)) (hl : Short l) (rest) (hs : s.authorityKeyId = []) :
    extFieldsLoop env (l.map Ext.parsed ++ rest) s = extFieldsLoop env rest { s with authorityKeyId := if [2,5,29,35] ∈ extra.map Prod.fst then [] else key } := by
  refine loop_opt h hl rest ?_ ?_
  · intro hoff
    have : (if [2,5,29,35] ∈ extra.map Prod.fst then [] else key) = [] := by
      rw [Bool.and_eq_false_iff] at hoff
      rcases hoff with h | h
      · simp at h; rw [h]; simp
      · exact unless_list.1 (by simpa using h)
    rw [this, ← hs]
  · intro hon b hb hlb
    rw [Bool.and_eq_true] at hon
    have hu : (if [2,5,29,35] ∈ extra.map Prod.fst then [] else key) = key := unless_list.2 (by simpa using hon.2)
    obtain ⟨c0, hr⟩ := authority_read (by simpa using hon.1) hb hlb
    show withValue (unmAll env authKeyIdTy b) (fun a => ({ s with authorityKeyId := a.2.1 }, false)) = _
    rw [hr, hu]; rfl

theorem access_step (h : accessExt env t extra = .ok (some l)) (hl : Short l) (rest) (hs : s.ocspServer = []) (hs2 : s.issuingUrl = []) :
    extFieldsLoop env (l.map Ext.parsed ++ rest) s = extFieldsLoop env rest { s with ocspServer := (t.unlessIn extra).ocspServer, issuingUrl := (t.unlessIn extra).issuingUrl } := by
  refine loop_opt h hl rest ?_ ?_
  · intro hoff
    have : (t.unlessIn extra).ocspServer = [] ∧ (t.unlessIn extra).issuingUrl = [] := by
      show (if _ then _ else _) = _ ∧ (if _ then _ else _) = _
      rw [Bool.and_eq_false_iff] at hoff
      rcases hoff with h | h
      · simp at h; rw [h.1, h.2]; simp
      · exact ⟨unless_list.1 (by simpa using h), unless_list.1 (by simpa using h)⟩
    rw [this.1, this.2]
    cases s; cases hs; cases hs2; rfl
  · intro hon b hb hlb
    rw [Bool.and_eq_true] at hon
    have hu : (t.unlessIn extra).ocspServer = t.ocspServer := unless_list.2 (by simpa using hon.2)
    have hu2 : (t.unlessIn extra).issuingUrl = t.issuingUrl := unless_list.2 (by simpa using hon.2)
    obtain ⟨w, hw, hr⟩ := access_read hb hlb
    show withValue (unmAll env (.slice false aiaTy) b) (fun as => (addAccess s as, false)) = _
    rw [hw, hu, hu2]
    show Except.ok (some (addAccess s w, false)) = _
    rw [access_fields hr, hs, hs2]; rfl

theorem san_step (h : sanExt env t extra = .ok (some l)) (hl : Short l) (hf : ∀ ip ∈ t.ips, ip.length = 4 ∨ ip.length = 16) (rest)
    (hs : s.dnsNames = []) (hs2 : s.emails = []) (hs3 : s.ips = []) :
    extFieldsLoop env (l.map Ext.parsed ++ rest) s = extFieldsLoop env rest { s with
      dnsNames := (t.unlessIn extra).dnsNames, emails := (t.unlessIn extra).emails, ips := (t.unlessIn extra).ips.map shortAddress } := by
  refine loop_opt h hl rest ?_ ?_
  · intro hoff
    have : (t.unlessIn extra).dnsNames = [] ∧ (t.unlessIn extra).emails = [] ∧ (t.unlessIn extra).ips = [] := by
      show (if _ then _ else _) = _ ∧ (if _ then _ else _) = _ ∧ (if _ then _ else _) = _
      rw [Bool.and_eq_false_iff] at hoff
      rcases hoff with h | h
      · simp at h; rw [h.1.1, h.1.2, h.2]; simp
      · exact ⟨unless_list.1 (by simpa using h), unless_list.1 (by simpa using h), unless_list.1 (by simpa using h)⟩
    rw [this.1, this.2.1, this.2.2]
    cases s; cases hs; cases hs2; cases hs3; rfl
  · intro hon b hb hlb
    rw [Bool.and_eq_true] at hon
    have hu : (t.unlessIn extra).dnsNames = t.dnsNames := unless_list.2 (by simpa using hon.2)
    have hu2 : (t.unlessIn extra).emails = t.emails := unless_list.2 (by simpa using hon.2)
    have hu3 : (t.unlessIn extra).ips = t.ips := unless_list.2 (by simpa using hon.2)
    show withValue (sanFields env b) (fun (dns, mail, ip) => ({ s with dnsNames := dns, emails := mail, ips := ip },
        decide (dns.length = 0) && decide (mail.length = 0) && decide (ip.length = 0))) = _
    rw [san_read hf hb hlb, hu, hu2, hu3]
    have : (decide (t.dnsNames.length = 0) && decide (t.emails.length = 0) && decide ((t.ips.map shortAddress).length = 0)) = false := by
      have := hon.1
      simp at this ⊢
      intro h1 h2
      rcases this with (h | h) | h
      · exact absurd h1 h
      · exact absurd h2 h
      · exact h
    show Except.ok (some (({ s with dnsNames := t.dnsNames, emails := t.emails, ips := t.ips.map shortAddress } : ExtFields), _)) = _
    rw [this]

theorem policy_step (h : policyExt env t extra = .ok (some l)) (hl : Short l) (hf : ∀ o ∈ t.policies, ValidOid o) (rest) (hs : s.policies = []) :
    extFieldsLoop env (l.map Ext.parsed ++ rest) s = extFieldsLoop env rest { s with policies := (t.unlessIn extra).policies } := by
  refine loop_opt h hl rest ?_ ?_
  · intro hoff
    have : (t.unlessIn extra).policies = [] := by
      show (if _ then _ else _) = _
      rw [Bool.and_eq_false_iff] at hoff
      rcases hoff with h | h
      · simp at h; rw [h]; simp
      · exact unless_list.1 (by simpa using h)
    rw [this, ← hs]
  · intro hon b hb hlb
    rw [Bool.and_eq_true] at hon
    have hu : (t.unlessIn extra).policies = t.policies := unless_list.2 (by simpa using hon.2)
    obtain ⟨ps, hr, hm⟩ := policies_read hf hb hlb
    show withValue (unmAll env (.slice false policyTy) b) (fun ps => ({ s with policies := (ps : List (Bytes × List Nat × Unit)).map (fun p => p.2.1) }, false)) = _
    rw [hr, hu, ← hm]; rfl

theorem subtrees_ok {c : Bool} {ps : List (Bytes × Bytes × Unit)} (h : c = true → ∀ n ∈ ps.map (fun s => s.2.1), n ≠ []) :
    subtreeNames c ps = some ((ps.map (fun s => s.2.1)).filter (fun n => n ≠ [])) := by
  rw [subtreeNames_eq, if_pos]
  · rfl
  · unfold subtreesOk
    cases c with
    | false => simp
    | true =>
      simp only [List.all_eq_true]
      intro s hs
      have := h rfl s.2.1 (List.mem_map_of_mem hs)
      simp [this]

theorem constraints_step (h : constraintsExt env t extra = .ok (some l)) (hl : Short l)
    (hf : t.permittedCritical = true → ∀ n ∈ t.permitted ++ t.excluded, n ≠ []) (rest)
    (hs : s.permitted = []) (hs2 : s.excluded = []) (hs3 : s.permittedCritical = false) :
    extFieldsLoop env (l.map Ext.parsed ++ rest) s = extFieldsLoop env rest { s with
      permitted := (templateSays (t.unlessIn extra) []).permitted, excluded := (templateSays (t.unlessIn extra) []).excluded,
      permittedCritical := (templateSays (t.unlessIn extra) []).permittedCritical } := by
  refine loop_opt h hl rest ?_ ?_
  · intro hoff
    have : (t.unlessIn extra).permitted = [] ∧ (t.unlessIn extra).excluded = [] := by
      show (if _ then _ else _) = _ ∧ (if _ then _ else _) = _
      rw [Bool.and_eq_false_iff] at hoff
      rcases hoff with h | h
      · simp at h; rw [h.1, h.2]; simp
      · exact ⟨unless_list.1 (by simpa using h), unless_list.1 (by simpa using h)⟩
    simp only [templateSays, this.1, this.2]
    cases s; cases hs; cases hs2; cases hs3; rfl
  · intro hon b hb hlb
    rw [Bool.and_eq_true] at hon
    have hu : (t.unlessIn extra).permitted = t.permitted := unless_list.2 (by simpa using hon.2)
    have hu2 : (t.unlessIn extra).excluded = t.excluded := unless_list.2 (by simpa using hon.2)
    have hu3 : (t.unlessIn extra).permittedCritical = t.permittedCritical := rfl
    obtain ⟨c0, ps, es, hr, hp, he⟩ := constraints_read hb hlb
    have hstep : extFieldsStep env s [2,5,29,30] t.permittedCritical b = setConstraints s t.permittedCritical ps es := by
      rw [extFieldsStep, if_neg (by decide), if_neg (by decide), if_neg (by decide), if_pos rfl, hr]
    rw [hstep, setConstraints]
    rw [subtrees_ok (fun hc n hn => hf hc n (List.mem_append_left _ (by rw [hp] at hn; exact hn))),
      subtrees_ok (fun hc n hn => hf hc n (List.mem_append_right _ (by rw [he] at hn; exact hn))), hp, he]
    have hd : decide (t.permitted ≠ [] ∨ t.excluded ≠ []) = true := by
      have := hon.1
      simp only [Bool.or_eq_true, decide_eq_true_eq] at this ⊢
      exact this
    simp only [templateSays, hu, hu2, hu3, hd, Bool.true_and]

theorem crl_step (h : crlExt env t extra = .ok (some l)) (hl : Short l) (hf : ∀ n ∈ t.crlPoints, n.length < 2 ^ 31) (rest) (hs : s.crlPoints = []) :
    extFieldsLoop env (l.map Ext.parsed ++ rest) s = extFieldsLoop env rest { s with crlPoints := (t.unlessIn extra).crlPoints } := by
  refine loop_opt h hl rest ?_ ?_
  · intro hoff
    have : (t.unlessIn extra).crlPoints = [] := by
      show (if _ then _ else _) = _
      rw [Bool.and_eq_false_iff] at hoff
      rcases hoff with h | h
      · simp at h; rw [h]; simp
      · exact unless_list.1 (by simpa using h)
    rw [this, ← hs]
  · intro hon b hb hlb
    rw [Bool.and_eq_true] at hon
    have hu : (t.unlessIn extra).crlPoints = t.crlPoints := unless_list.2 (by simpa using hon.2)
    obtain ⟨ps, hr, hm⟩ := points_read hb hlb
    have hstep : extFieldsStep env s [2,5,29,31] false b = withValue (dpUrls env ps s.crlPoints) (fun l => ({ s with crlPoints := l }, false)) := by
      rw [extFieldsStep, if_neg (by decide), if_neg (by decide), if_neg (by decide), if_neg (by decide), if_pos rfl, hr]
    rw [hstep, points_urls hm _ hf, hs, hu]; rfl

end Cre
end Apk
