import Verif.Proofs.CreateOk
import Verif.Props.CertFull
import Verif.Props.Marshal
/-!
# C86: certificates written from templates

`buildExtensions` (x509.go:1571-1754) turns the fields of a template into extensions. What a parsed certificate with these extensions
says is what the template says (`templateSays`, Spec/Create).
-/
namespace Apk
open Cre

/-- C86: the extensions written from a template are followed by the extra ones, and parsing them gives the fields of the template,
    without those an extra extension takes the place of. -/
theorem C86_template_read_back {env : AsnEnv} {t : ExtFields} {key : Bytes} {extra exts : List Ext} (h : buildExtensions env t key extra = .ok (some exts))
    (hf : TemplateFits t) (hl : ∀ e ∈ exts, e.2.2.length < 2 ^ 31) :
    ∃ written, exts = written ++ extra ∧ extFieldsLoop env (written.map Ext.parsed) {} =
      .ok (some (templateSays (t.unlessIn extra) (if [2,5,29,35] ∈ extra.map Prod.fst then [] else key))) := by
  unfold buildExtensions at h
  obtain ⟨l1, r1, h1, g1, e1⟩ := extsThen_inv h
  obtain ⟨l2, r2, h2, g2, e2⟩ := extsThen_inv g1
  obtain ⟨l3, r3, h3, g3, e3⟩ := extsThen_inv g2
  obtain ⟨l4, r4, h4, g4, e4⟩ := extsThen_inv g3
  obtain ⟨l5, r5, h5, g5, e5⟩ := extsThen_inv g4
  obtain ⟨l6, r6, h6, g6, e6⟩ := extsThen_inv g5
  obtain ⟨l7, r7, h7, g7, e7⟩ := extsThen_inv g6
  obtain ⟨l8, r8, h8, g8, e8⟩ := extsThen_inv g7
  obtain ⟨l9, r9, h9, g9, e9⟩ := extsThen_inv g8
  obtain ⟨l10, r10, h10, g10, e10⟩ := extsThen_inv g9
  cases g10
  subst e10; subst e9; subst e8; subst e7; subst e6; subst e5; subst e4; subst e3; subst e2; subst e1
  refine ⟨l1 ++ (l2 ++ (l3 ++ (l4 ++ (l5 ++ (l6 ++ (l7 ++ (l8 ++ (l9 ++ l10)))))))), by simp only [List.append_assoc], ?_⟩
  have e : (l1 ++ (l2 ++ (l3 ++ (l4 ++ (l5 ++ (l6 ++ (l7 ++ (l8 ++ (l9 ++ l10))))))))).map Ext.parsed = l1.map Ext.parsed ++ (l2.map Ext.parsed ++ (l3.map Ext.parsed ++
      (l4.map Ext.parsed ++ (l5.map Ext.parsed ++ (l6.map Ext.parsed ++ (l7.map Ext.parsed ++ (l8.map Ext.parsed ++ (l9.map Ext.parsed ++ (l10.map Ext.parsed ++ []))))))))) := by
    simp only [List.map_append, List.append_nil]
  rw [e]
  have hm : ∀ l : List Ext, (∀ e ∈ l, e ∈ l1 ++ (l2 ++ (l3 ++ (l4 ++ (l5 ++ (l6 ++ (l7 ++ (l8 ++ (l9 ++ (l10 ++ extra)))))))))) → Short l := fun l hs e he => hl e (hs e he)
  rw [usage_step h1 (hm _ (fun e he => by simp only [List.mem_append]; simp [he])) _ rfl,
    purpose_step h2 (hm _ (fun e he => by simp only [List.mem_append]; simp [he])) hf.purposes _ rfl rfl,
    basic_step h3 (hm _ (fun e he => by simp only [List.mem_append]; simp [he])) hf.pathLen _ rfl rfl rfl rfl,
    subject_step h4 (hm _ (fun e he => by simp only [List.mem_append]; simp [he])) _ rfl,
    authority_step h5 (hm _ (fun e he => by simp only [List.mem_append]; simp [he])) _ rfl,
    access_step h6 (hm _ (fun e he => by simp only [List.mem_append]; simp [he])) _ rfl rfl,
    san_step h7 (hm _ (fun e he => by simp only [List.mem_append]; simp [he])) hf.ips _ rfl rfl rfl,
    policy_step h8 (hm _ (fun e he => by simp only [List.mem_append]; simp [he])) hf.policies _ rfl,
    constraints_step h9 (hm _ (fun e he => by simp only [List.mem_append]; simp [he])) hf.constraints _ rfl rfl rfl,
    crl_step h10 (hm _ (fun e he => by simp only [List.mem_append]; simp [he])) hf.points _ rfl]
  rfl

/-- C86: without extra extensions. -/
theorem C86_plain {env : AsnEnv} {t : ExtFields} {key : Bytes} {exts : List Ext} (h : buildExtensions env t key [] = .ok (some exts))
    (hf : TemplateFits t) (hl : ∀ e ∈ exts, e.2.2.length < 2 ^ 31) : extFieldsLoop env (exts.map Ext.parsed) {} = .ok (some (templateSays t key)) := by
  obtain ⟨w, rfl, hr⟩ := C86_template_read_back h hf hl
  rw [List.append_nil, hr]
  rfl

/-- C86: in the words of RFC 5280 (`ExtFieldsAre`, Spec/CertFull), without reference to the parser. -/
theorem C86_describes {env : AsnEnv} {t : ExtFields} {key : Bytes} {exts : List Ext} (h : buildExtensions env t key [] = .ok (some exts))
    (hf : TemplateFits t) (hl : ∀ e ∈ exts, e.2.2.length < 2 ^ 31) : ExtFieldsAre env (exts.map Ext.parsed) (templateSays t key) :=
  loop_fields (C86_plain h hf hl)

/-- C86: which extensions are written, and which of them are critical. -/
theorem C86_which {env : AsnEnv} {t : ExtFields} {key : Bytes} {extra exts : List Ext} (h : buildExtensions env t key extra = .ok (some exts)) :
    exts.map (fun e => (e.1, e.2.1)) = writtenExts t key extra ++ extra.map (fun e => (e.1, e.2.1)) := by
  unfold buildExtensions at h
  obtain ⟨l1, r1, h1, g1, e1⟩ := extsThen_inv h
  obtain ⟨l2, r2, h2, g2, e2⟩ := extsThen_inv g1
  obtain ⟨l3, r3, h3, g3, e3⟩ := extsThen_inv g2
  obtain ⟨l4, r4, h4, g4, e4⟩ := extsThen_inv g3
  obtain ⟨l5, r5, h5, g5, e5⟩ := extsThen_inv g4
  obtain ⟨l6, r6, h6, g6, e6⟩ := extsThen_inv g5
  obtain ⟨l7, r7, h7, g7, e7⟩ := extsThen_inv g6
  obtain ⟨l8, r8, h8, g8, e8⟩ := extsThen_inv g7
  obtain ⟨l9, r9, h9, g9, e9⟩ := extsThen_inv g8
  obtain ⟨l10, r10, h10, g10, e10⟩ := extsThen_inv g9
  cases g10
  subst e10; subst e9; subst e8; subst e7; subst e6; subst e5; subst e4; subst e3; subst e2; subst e1
  have hp : l2.map (fun e => (e.1, e.2.1)) = if (decide (t.extKeyUsage ≠ []) || decide (t.unknownExtKeyUsage ≠ [])) && !oidInExtensions [2,5,29,37] extra then
      [([2,5,29,37], false)] else [] := by
    unfold purposeExt at h2
    by_cases hw : ((decide (t.extKeyUsage ≠ []) || decide (t.unknownExtKeyUsage ≠ [])) && !oidInExtensions [2,5,29,37] extra) = true
    · rw [if_pos hw] at h2 ⊢
      cases hp : purposeOids t.extKeyUsage with
      | none => rw [hp] at h2; cases h2
      | some os => rw [hp] at h2; exact ids_one h2
    · rw [if_neg hw] at h2 ⊢
      cases h2; rfl
  have one : ∀ {on : Bool} {id : List Nat} {c : Bool} {P : Prop}, (on = true ↔ P) → ∀ l : List (List Nat × Bool),
      l = (if on && !oidInExtensions id extra then [(id, c)] else []) →
      open Classical in l = (([(id, P, c)].filter (fun w : List Nat × Prop × Bool => decide (w.2.1 ∧ w.1 ∉ extra.map Prod.fst))).map (fun w => (w.1, w.2.2))) := by
    intro on id c P hP l hl
    rw [hl]
    have hq : (on && !oidInExtensions id extra) = true ↔ P ∧ id ∉ extra.map Prod.fst := by
      rw [Bool.and_eq_true, hP, ← in_iff]; simp
    by_cases hc : P ∧ id ∉ extra.map Prod.fst
    · rw [if_pos (hq.2 hc)]
      simp only [List.filter_cons, List.filter_nil]
      rw [if_pos (by simpa using hc)]; rfl
    · rw [if_neg (fun h => hc (hq.1 h))]
      simp only [List.filter_cons, List.filter_nil]
      rw [if_neg (by simpa using hc)]; rfl
  simp only [List.map_append, ← List.append_assoc]
  congr 1
  rw [one (P := t.keyUsage ≠ 0) decide_eq_true_iff _ (ids_one h1),
    one (P := t.extKeyUsage ≠ [] ∨ t.unknownExtKeyUsage ≠ []) (by simp) _ hp,
    one (P := t.basicConstraintsValid = true) Iff.rfl _ (ids_one h3),
    one (P := t.subjectKeyId ≠ []) decide_eq_true_iff _ (ids_one h4),
    one (P := key ≠ []) decide_eq_true_iff _ (ids_one h5),
    one (P := t.ocspServer ≠ [] ∨ t.issuingUrl ≠ []) (by simp) _ (ids_one h6),
    one (P := t.dnsNames ≠ [] ∨ t.emails ≠ [] ∨ t.ips ≠ []) (by simp [or_assoc]) _ (ids_one h7),
    one (P := t.policies ≠ []) decide_eq_true_iff _ (ids_one h8),
    one (P := t.permitted ≠ [] ∨ t.excluded ≠ []) (by simp) _ (ids_one h9),
    one (P := t.crlPoints ≠ []) decide_eq_true_iff _ (ids_one h10)]
  rw [← List.map_append, ← List.map_append, ← List.map_append, ← List.map_append, ← List.map_append, ← List.map_append, ← List.map_append, ← List.map_append, ← List.map_append,
    ← List.filter_append, ← List.filter_append, ← List.filter_append, ← List.filter_append, ← List.filter_append, ← List.filter_append, ← List.filter_append, ← List.filter_append, ← List.filter_append]
  rfl

/-- C86: the extensions can be written exactly if what is not replaced has an encoding. -/
theorem C86_succeeds_iff {env : AsnEnv} {t : ExtFields} {key : Bytes} {extra : List Ext} :
    (∃ exts, buildExtensions env t key extra = .ok (some exts)) ↔ TemplateWritable (t.unlessIn extra) := by
  unfold buildExtensions
  simp only [extsThen_ok, purpose_ok, policy_ok, constraints_ok]
  constructor
  · rintro ⟨_, ⟨h1, h2⟩, _, _, _, _, _, h3, h4, _⟩
    exact ⟨h1, h2, h3, h4⟩
  · rintro ⟨h1, h2, h3, h4⟩
    exact ⟨usage_ok, ⟨h1, h2⟩, basic_ok, subject_ok, authority_ok, access_ok, san_ok, h3, h4, crl_ok, ⟨extra, rfl⟩⟩

/-- C86: it panics exactly if a purpose that is not replaced has an unknown number. -/
theorem C86_panics_iff {env : AsnEnv} {t : ExtFields} {key : Bytes} {extra : List Ext} {p : Panic} :
    buildExtensions env t key extra = .error p ↔ p = .explicit ∧ ∃ u ∈ (t.unlessIn extra).extKeyUsage, keyPurposes.length ≤ u := by
  have no : ∀ {on c : Bool} {id : List Nat} {v : Except MErr Bytes}, oneExt on id c v = .error p ↔ False := ⟨fun h => oneExt_no_panic h, False.elim⟩
  unfold buildExtensions
  simp only [extsThen_panics, purpose_panics]
  unfold usageExt basicExt subjectKeyExt authorityKeyExt accessExt sanExt policyExt constraintsExt crlExt
  simp only [no, false_or]
  refine ⟨fun h => ?_, fun h => ⟨usage_ok, .inl h⟩⟩
  rcases h with ⟨_, h | h⟩
  · exact h
  · simp at h

/-- C86: a certificate written from the fields that were read from one made from a template says the same again. -/
theorem C86_copies {t : ExtFields} {key : Bytes} (hf : TemplateFits t) : templateSays (templateSays t key) key = templateSays t key := by
  have h1 : t.keyUsage % 512 % 512 = t.keyUsage % 512 := Nat.mod_mod _ _
  have h2 : (t.unknownExtKeyUsage.filter (fun o => o ∉ keyPurposes)).filterMap (fun o => keyPurposes.idxOf? o) = [] := by
    rw [List.filterMap_eq_nil_iff]
    intro o ho
    exact List.idxOf?_eq_none_iff.2 (by simpa using (List.mem_filter.1 ho).2)
  have h3 : ∀ ip : Bytes, shortAddress (shortAddress ip) = shortAddress ip := by
    intro ip
    unfold shortAddress
    by_cases h : ip.length = 16 ∧ [0, 0, 0, 0, 0, 0, 0, 0, 0, 0, 255, 255] <+: ip
    · rw [if_pos h, if_neg (by rw [List.length_drop]; omega)]
    · rw [if_neg h, if_neg h]
  have h4 : (t.ips.map shortAddress).map shortAddress = t.ips.map shortAddress := by
    rw [List.map_map]; exact List.map_congr_left (fun ip _ => h3 ip)
  have h5 : (decide (t.permitted.filter (fun n => n ≠ []) ≠ [] ∨ t.excluded.filter (fun n => n ≠ []) ≠ []) && (decide (t.permitted ≠ [] ∨ t.excluded ≠ []) && t.permittedCritical)) =
      (decide (t.permitted ≠ [] ∨ t.excluded ≠ []) && t.permittedCritical) := by
    cases hc : t.permittedCritical with
    | false => simp
    | true =>
      have hn := hf.constraints hc
      have e1 : t.permitted.filter (fun n => n ≠ []) = t.permitted := List.filter_eq_self.2 (fun n hn' => by simpa using hn n (List.mem_append_left _ hn'))
      have e2 : t.excluded.filter (fun n => n ≠ []) = t.excluded := List.filter_eq_self.2 (fun n hn' => by simpa using hn n (List.mem_append_right _ hn'))
      rw [e1, e2]; simp
  have h6 : ∀ l : List Bytes, (l.filter (fun n => n ≠ [])).filter (fun n => n ≠ []) = l.filter (fun n => n ≠ []) := fun l => by
    rw [List.filter_filter]; simp
  have h7 : ∀ l : List (List Nat), (l.filter (fun o => o ∉ keyPurposes)).filter (fun o => o ∉ keyPurposes) = l.filter (fun o => o ∉ keyPurposes) := fun l => by
    rw [List.filter_filter]; simp
  simp only [templateSays, h1, h2, h4, h6, h7, List.append_nil]
  have g1 : ∀ (v z : Bool) (m : Int), (if v = true then if (if v = true then if m = 0 ∧ z = false then -1 else m else 0) = 0 ∧ (v && decide (m = 0) && z) = false then -1
      else if v = true then if m = 0 ∧ z = false then -1 else m else 0 else 0) = if v = true then if m = 0 ∧ z = false then -1 else m else 0 := by
    intro v z m
    cases v <;> cases z <;> by_cases h : m = 0 <;> simp [h]
  have g2 : ∀ (v z : Bool) (m : Int), (v && decide ((if v = true then if m = 0 ∧ z = false then -1 else m else 0) = 0) && (v && decide (m = 0) && z)) =
      (v && decide (m = 0) && z) := by
    intro v z m
    cases v <;> cases z <;> by_cases h : m = 0 <;> simp [h]
  congr 1
  · cases t.basicConstraintsValid <;> simp
  · exact g1 _ _ _
  · exact g2 _ _ _

theorem Cre.of_check {env : AsnEnv} {t : ExtFields} {key : Bytes} {r : Go (Option ExtFields)}
    (h : (match buildExtensions env t key [] with | .ok (some l) => decide (extFieldsLoop env (l.map Ext.parsed) {} = r) | _ => false) = true) :
    ∃ exts, buildExtensions env t key [] = .ok (some exts) ∧ extFieldsLoop env (exts.map Ext.parsed) {} = r := by
  rcases hb : buildExtensions env t key [] with p | _ | l
  · rw [hb] at h; cases h
  · rw [hb] at h; cases h
  · rw [hb] at h; exact ⟨l, rfl, by simpa using h⟩

/-- C86: violations of "what can be written is what is read". A usage beyond the ninth is written, and read as none. -/
theorem C86_usage_lost : ∃ exts, buildExtensions asnEnv0 { keyUsage := 512 } [] [] = .ok (some exts) ∧ extFieldsLoop asnEnv0 (exts.map Ext.parsed) {} = .ok (some {}) :=
  Cre.of_check (by decide +kernel)

/-- C86: an address of another length is written; the certificate cannot be parsed. -/
theorem C86_wrong_address : ∃ exts, buildExtensions asnEnv0 { ips := [[1, 2, 3, 4, 5]] } [] [] = .ok (some exts) ∧ extFieldsLoop asnEnv0 (exts.map Ext.parsed) {} = .ok none :=
  Cre.of_check (by decide +kernel)

/-- C86: so for an empty name in critical name constraints. -/
theorem C86_empty_constraint : ∃ exts, buildExtensions asnEnv0 { permitted := [[]], permittedCritical := true } [] [] = .ok (some exts) ∧
    extFieldsLoop asnEnv0 (exts.map Ext.parsed) {} = .ok none := Cre.of_check (by decide +kernel)

/-- C86: so for an object identifier with a number that does not fit in 31 bits. -/
theorem C86_large_policy : ∃ exts, buildExtensions asnEnv0 { policies := [[1, 2, 2147483648]] } [] [] = .ok (some exts) ∧
    extFieldsLoop asnEnv0 (exts.map Ext.parsed) {} = .ok none := Cre.of_check (by decide +kernel)

/-- C86: an unknown number of a purpose panics. -/
theorem C86_unknown_panics : buildExtensions asnEnv0 { extKeyUsage := [12] } [] [] = .error .explicit := by decide +kernel

/-- A template with something in every field. -/
def toyTemplate : ExtFields where
  keyUsage := 0x1a5
  extKeyUsage := [1, 11]
  unknownExtKeyUsage := [[1, 2, 840, 5], [1, 3, 6, 1, 5, 5, 7, 3, 9]]
  basicConstraintsValid := true
  isCA := true
  maxPathLen := 300
  subjectKeyId := [1, 2, 3]
  ocspServer := [b!"http://o"]
  issuingUrl := [b!"http://i", b!""]
  dnsNames := [b!"a.b", b!"c"]
  emails := [b!"x@y"]
  ips := [[1, 2, 3, 4], [0, 0, 0, 0, 0, 0, 0, 0, 0, 0, 255, 255, 9, 8, 7, 6]]
  permittedCritical := true
  permitted := [b!"a.b"]
  excluded := [b!"c.a.b", b!"d"]
  crlPoints := [b!"http://c"]
  policies := [[2, 5, 29, 32, 0]]

/-- C86: hypotheses of the theorems above, met by a template with something in every field, with and without an extra extension. -/
theorem C86_example : TemplateFits toyTemplate ∧ TemplateWritable toyTemplate ∧
    (∃ exts, buildExtensions asnEnv0 toyTemplate [7] [] = .ok (some exts) ∧ exts.length = 10 ∧ ∀ e ∈ exts, e.2.2.length < 2 ^ 31) ∧
    ∃ exts, buildExtensions asnEnv0 toyTemplate [7] [([2,5,29,17], true, [48, 0])] = .ok (some exts) ∧ exts.length = 10 ∧ ∀ e ∈ exts, e.2.2.length < 2 ^ 31 := by
  have chk : ∀ {x : Go (Option (List Ext))}, (match x with | .ok (some l) => decide (l.length = 10) && l.all (fun e => decide (e.2.2.length < 2 ^ 31)) | _ => false) = true →
      ∃ exts, x = .ok (some exts) ∧ exts.length = 10 ∧ ∀ e ∈ exts, e.2.2.length < 2 ^ 31 := by
    intro x h
    rcases x with p | _ | l
    · cases h
    · cases h
    · rw [Bool.and_eq_true, List.all_eq_true] at h
      exact ⟨l, rfl, by simpa using h.1, fun e he => by simpa using h.2 e he⟩
  refine ⟨?_, ?_, chk (by decide +kernel), chk (by decide +kernel)⟩
  · refine ⟨?_, ?_, ⟨by decide, by decide⟩, by decide, by decide +kernel, by decide⟩
    · intro o ho
      simp only [toyTemplate, List.mem_cons, List.not_mem_nil, or_false] at ho
      rcases ho with rfl | rfl <;> exact ⟨by decide, by decide, by decide, by decide⟩
    · intro o ho
      simp only [toyTemplate, List.mem_cons, List.not_mem_nil, or_false] at ho
      subst ho
      exact ⟨by decide, by decide, by decide, by decide⟩
  · refine ⟨by decide, ?_, ?_, by decide +kernel⟩
    · intro o ho
      simp only [toyTemplate, List.mem_cons, List.not_mem_nil, or_false] at ho
      rcases ho with rfl | rfl <;> exact ⟨by decide, by decide⟩
    · intro o ho
      simp only [toyTemplate, List.mem_cons, List.not_mem_nil, or_false] at ho
      subst ho
      exact ⟨by decide, by decide⟩

end Apk
