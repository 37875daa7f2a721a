import Verif.Spec.PoolPem
import Verif.Props.Chain
import Verif.Props.CertFull
/-!
# C88: pools of certificates from PEM files
-/
namespace Apk

theorem appendPemLoop_eq {decode : Bytes → Option (PemBlock × Bytes)} (hd : DecodeShrinks decode) {env : CertEnv} {text : Bytes} {blks : List PemBlock}
    (hb : PemBlocksAre decode text blks) : ∀ {certs : List CertFull}, CertsInBlocks env blks certs → ∀ (fuel : Nat) (s : CertPool) (ok : Bool), text.length ≤ fuel →
      appendPemLoop decode env fuel text s ok = .ok (certs.foldl CertPool.add s, ok || decide (certs ≠ [])) := by
  induction hb with
  | empty =>
    intro certs hc fuel s ok _
    cases hc
    cases fuel <;> simp [appendPemLoop]
  | none h =>
    intro certs hc fuel s ok _
    cases hc
    cases fuel with
    | zero => simp [appendPemLoop]
    | succ n =>
      rw [appendPemLoop, h]
      split <;> simp
  | @cons text rest blk blks hne h _ ih =>
    intro certs hc fuel s ok hf
    have hpos : text.length > 0 := List.length_pos_iff.2 hne
    have hlt := hd _ _ _ h
    cases fuel with
    | zero => omega
    | succ n =>
      rw [appendPemLoop, if_pos hpos, h]
      dsimp only
      by_cases ht : blk.type ≠ b!"CERTIFICATE" ∨ blk.headers.length ≠ 0
      · rw [if_pos ht]
        cases hc with
        | skip _ hc => exact ih hc n s ok (by omega)
        | take hx _ =>
          rcases ht with ht | ht
          · exact absurd hx.1 ht
          · exact absurd (by rw [hx.2.1]; rfl) ht
      · rw [if_neg ht]
        have h1 : blk.type = b!"CERTIFICATE" := Classical.byContradiction (fun h => ht (.inl h))
        have h2 : blk.headers = [] := by
          refine Classical.byContradiction (fun h => ht (.inr ?_))
          exact fun h' => h (List.length_eq_zero_iff.1 h')
        cases hc with
        | skip hx hc =>
          have hn : parseFull env blk.bytes = .ok none := C80_certificate_refused.2 (fun ⟨x, h⟩ => hx x ⟨h1, h2, h⟩)
          rw [hn]
          exact ih hc n s ok (by omega)
        | @take _ _ certs x hx hc =>
          have hp := C80_certificate_iff.2 hx.2.2
          rw [hp]
          dsimp only
          rw [ih hc n _ true (by omega)]
          simp

/-- C88: reading a PEM file into a pool adds the certificates of its blocks in their order, and reports whether there was one. -/
theorem C88_append {decode : Bytes → Option (PemBlock × Bytes)} (hd : DecodeShrinks decode) {env : CertEnv} {text : Bytes} {blks : List PemBlock} {certs l : List CertFull}
    (hb : PemBlocksAre decode text blks) (hc : CertsInBlocks env blks certs) :
    (CertPool.of l).appendPem decode env text = .ok (CertPool.of (l ++ certs), decide (certs ≠ [])) := by
  unfold CertPool.appendPem CertPool.of
  rw [appendPemLoop_eq hd hb hc _ _ _ (Nat.le_refl _), List.foldl_append]
  simp

/-- C88: every text has a list of blocks, and they have a list of certificates. -/
theorem C88_defined {decode : Bytes → Option (PemBlock × Bytes)} (hd : DecodeShrinks decode) (env : CertEnv) (text : Bytes) :
    ∃ blks certs, PemBlocksAre decode text blks ∧ CertsInBlocks env blks certs := by
  have hb : ∀ (n : Nat) (text : Bytes), text.length ≤ n → ∃ blks, PemBlocksAre decode text blks := by
    intro n
    induction n with
    | zero =>
      intro text h
      obtain rfl := List.length_eq_zero_iff.1 (Nat.le_zero.1 h)
      exact ⟨_, .empty⟩
    | succ n ih =>
      intro text h
      by_cases ht : text = []
      · subst ht; exact ⟨_, .empty⟩
      · cases hdec : decode text with
        | none => exact ⟨_, .none hdec⟩
        | some r =>
          obtain ⟨blk, rest⟩ := r
          have := hd _ _ _ hdec
          obtain ⟨blks, hb⟩ := ih rest (by omega)
          exact ⟨_, .cons ht hdec hb⟩
  obtain ⟨blks, hb⟩ := hb _ text (Nat.le_refl _)
  have hc : ∀ blks : List PemBlock, ∃ certs, CertsInBlocks env blks certs := by
    intro blks
    induction blks with
    | nil => exact ⟨_, .nil⟩
    | cons blk blks ih =>
      obtain ⟨certs, h⟩ := ih
      by_cases hx : ∃ x, CertBlockIs env blk x
      · obtain ⟨x, hx⟩ := hx
        exact ⟨_, .take hx h⟩
      · exact ⟨_, .skip (fun x h => hx ⟨x, h⟩) h⟩
  obtain ⟨certs, hc⟩ := hc blks
  exact ⟨blks, certs, hb, hc⟩

/-- C88: reading never panics. -/
theorem C88_total {decode : Bytes → Option (PemBlock × Bytes)} (hd : DecodeShrinks decode) (env : CertEnv) (l : List CertFull) (text : Bytes) :
    ∃ r, (CertPool.of l).appendPem decode env text = .ok r := by
  obtain ⟨blks, certs, hb, hc⟩ := C88_defined hd env text
  exact ⟨_, C88_append hd hb hc⟩

/-- C88: a pool has every certificate that was added, once, in their order (of equal ones the first). -/
theorem C88_contents (l : List CertFull) (hl : Spec.DistinctRaws l) :
    (CertPool.of l).certs.Sublist l ∧ (∀ x, x ∈ (CertPool.of l).certs ↔ x ∈ l) ∧ (CertPool.of l).certs.Pairwise (fun x y => x.base.raw ≠ y.base.raw) := by
  have hp := poolOk_of l
  have hmem : ∀ x, x ∈ (CertPool.of l).certs ↔ x ∈ l := by
    intro x
    refine ⟨hp.sub x, fun hx => ?_⟩
    obtain ⟨y, h1, h2, _⟩ := hp.cover x hx
    exact hl y (hp.sub y h1) x hx h2 ▸ h1
  have key : ∀ (l l0 : List CertFull) (s : CertPool), PoolOk s l0 → Spec.DistinctRaws (l0 ++ l) → s.certs.Sublist l0 → s.certs.Pairwise (fun x y => x.base.raw ≠ y.base.raw) →
      (l.foldl CertPool.add s).certs.Sublist (l0 ++ l) ∧ (l.foldl CertPool.add s).certs.Pairwise (fun x y => x.base.raw ≠ y.base.raw) := by
    intro l
    induction l with
    | nil => intro l0 s h _ h1 h2; rw [List.append_nil]; exact ⟨h1, h2⟩
    | cons c l ih =>
      intro l0 s h hdist h1 h2
      have hadd := pool_add h c
      have e : l0 ++ c :: l = (l0 ++ [c]) ++ l := by rw [List.append_assoc]; rfl
      rw [e] at hdist ⊢
      refine ih _ _ hadd hdist ?_ ?_
      · unfold CertPool.add
        by_cases hc : s.contains c = true
        · rw [if_pos hc]
          exact h1.trans (List.sublist_append_left _ _)
        · rw [if_neg hc]
          exact List.Sublist.append h1 (List.Sublist.refl _)
      · unfold CertPool.add
        by_cases hc : s.contains c = true
        · rw [if_pos hc]
          exact h2
        · rw [if_neg hc]
          show (s.certs ++ [c]).Pairwise _
          rw [List.pairwise_append]
          refine ⟨h2, List.pairwise_singleton _ _, fun x hx y hy hxy => ?_⟩
          obtain rfl := List.mem_singleton.1 hy
          have : x = y := hdist x (List.mem_append_left _ (List.mem_append_left _ (h.sub x hx))) y (by simp) hxy
          subst this
          exact hc ((contains_iff h _).2 ⟨_, hx, rfl, rfl⟩)
  have := key l [] {} ⟨by simp, by simp, by simp, by simp⟩ (by rwa [List.nil_append]) (List.Sublist.refl _) List.Pairwise.nil
  rw [List.nil_append] at this
  exact ⟨this.1, hmem, this.2⟩

/-- C88: certificates that were read differ in their bytes. -/
theorem C88_distinct {env : CertEnv} {blks : List PemBlock} {certs : List CertFull} (hc : CertsInBlocks env blks certs) : Spec.DistinctRaws certs := by
  refine C83_parsed_same (ce := env) ?_
  induction hc with
  | nil => intro x hx; cases hx
  | skip _ _ ih => exact ih
  | take hx _ ih =>
    intro y hy
    rcases List.mem_cons.1 hy with rfl | hy
    · exact ⟨_, hx.2.2⟩
    · exact ih y hy

/-- C88: the subjects of a pool are those of the certificates that were added. -/
theorem C88_subjects (l : List CertFull) (b : Bytes) : b ∈ (CertPool.of l).subjects ↔ ∃ x ∈ l, x.rawSubject = b := by
  have hp := poolOk_of l
  unfold CertPool.subjects
  rw [List.mem_map]
  constructor
  · rintro ⟨x, hx, h⟩
    exact ⟨x, hp.sub x hx, h⟩
  · rintro ⟨x, hx, h⟩
    obtain ⟨y, h1, _, h2⟩ := hp.cover x hx
    exact ⟨y, h1, h2.trans h⟩

/-- A decoder for the example: a text is as many blocks as it has bytes; 1 stands for a certificate, 2 for one with a header, 3 for another
    kind of block, 4 for a certificate that is cut short. -/
def toyPemDecode (text : Bytes) : Option (PemBlock × Bytes) :=
  match text with
  | [] => none
  | k :: rest =>
    let der := Toy.certX Toy.ecAlg Toy.ecSpki Toy.fullExts
    if k = 1 then some (⟨b!"CERTIFICATE", [], der⟩, rest)
    else if k = 2 then some (⟨b!"CERTIFICATE", [(b!"a", b!"b")], der⟩, rest)
    else if k = 3 then some (⟨b!"X509 CRL", [], der⟩, rest)
    else if k = 4 then some (⟨b!"CERTIFICATE", [], []⟩, rest)
    else none

set_option maxRecDepth 8000 in
/-- C88: hypotheses of the theorems above, met by a text with two copies of a certificate, the other kinds of blocks, and something else at
    the end: the pool has the certificate once. -/
theorem C88_example : DecodeShrinks toyPemDecode ∧ ∃ blks x, PemBlocksAre toyPemDecode [3, 1, 2, 4, 1, 9, 1] blks ∧ CertsInBlocks Toy.ceEc blks [x, x] ∧ blks.length = 5 ∧
    (CertPool.of [x, x]).certs = [x] ∧ (CertPool.of []).appendPem toyPemDecode Toy.ceEc [3, 1, 2, 4, 1, 9, 1] = .ok (CertPool.of [x, x], true) := by
  have hd : DecodeShrinks toyPemDecode := by
    intro b blk rest h
    unfold toyPemDecode at h
    split at h
    · cases h
    · dsimp only at h
      repeat' split at h
      all_goals first
        | (cases h; done)
        | (cases h; exact Nat.lt_succ_self _)
  obtain ⟨x, hx, _⟩ := C80_names_example
  have hno : ∀ x, ¬ FullCertificateIs Toy.ceEc [] x := fun x h => C80_certificate_refused.1 (by with_unfolding_all rfl) ⟨x, h⟩
  have hb : PemBlocksAre toyPemDecode [3, 1, 2, 4, 1, 9, 1] _ :=
    .cons (by decide) rfl (.cons (by decide) rfl (.cons (by decide) rfl (.cons (by decide) rfl (.cons (by decide) rfl (.none rfl)))))
  have hc : CertsInBlocks Toy.ceEc _ [x, x] := .skip (blk := ⟨b!"X509 CRL", [], Toy.certX Toy.ecAlg Toy.ecSpki Toy.fullExts⟩) (fun _ h => absurd h.1 (by decide))
    (.take (blk := ⟨b!"CERTIFICATE", [], Toy.certX Toy.ecAlg Toy.ecSpki Toy.fullExts⟩) ⟨rfl, rfl, hx⟩
    (.skip (blk := ⟨b!"CERTIFICATE", [(b!"a", b!"b")], Toy.certX Toy.ecAlg Toy.ecSpki Toy.fullExts⟩) (fun _ h => absurd h.2.1 (by simp))
    (.skip (blk := ⟨b!"CERTIFICATE", [], []⟩) (fun y h => hno y h.2.2)
    (.take (blk := ⟨b!"CERTIFICATE", [], Toy.certX Toy.ecAlg Toy.ecSpki Toy.fullExts⟩) ⟨rfl, rfl, hx⟩ .nil))))
  have hap := C88_append hd (l := []) hb hc
  refine ⟨hd, _, x, hb, hc, rfl, ?_, by simpa using hap⟩
  obtain ⟨_, h2, h3⟩ := C88_contents [x, x] (C88_distinct hc)
  have hall : ∀ y ∈ (CertPool.of [x, x]).certs, y = x := fun y hy => by simpa using (h2 y).1 hy
  have hin : x ∈ (CertPool.of [x, x]).certs := (h2 x).2 (by simp)
  generalize (CertPool.of [x, x]).certs = cs at *
  match cs, hall, hin, h3 with
  | [a], hall, _, _ => rw [hall a (by simp)]
  | a :: b :: r, hall, _, h3 =>
    have ha := hall a (by simp)
    have hb := hall b (by simp)
    exact absurd (by rw [ha, hb]) ((List.pairwise_cons.1 h3).1 b (by simp))

end Apk
