import Verif.Proofs.Stamp
/-! # Source stamps: the whole verification -/
namespace Apk

/-! ## Attributes -/

theorem stampLineage_iff {env : Env} {b : Bytes} {nodes : List LNode} :
    stampLineage env b = .ok (.ok nodes) ↔
      ∃ items, b = leBytes 4 1 ++ lpSeq items ∧ (∀ x ∈ items, Small x) ∧ ChainOK env env.parseCertAndr none items nodes ∧
        (nodes.map (·.cert.raw)).Nodup := by
  have loop := fun items => lineageLoop_iff (env := env) (parse := env.parseCertAndr) items (nodes := []) (nodes' := nodes) (by simp)
  unfold stampLineage
  constructor
  · intro h
    cases hr : rdU32 b with
    | none => rw [hr] at h; cases h
    | some q =>
      obtain ⟨v, rest⟩ := q
      rw [hr] at h
      simp only at h
      split at h
      · cases h
      · rename_i hv
        have hv : v = 1 := Classical.byContradiction hv
        subst hv
        cases hsp : lpSplit rest with
        | mk items err =>
          rw [hsp] at h
          simp only at h
          cases hl : lineageLoop env env.parseCertAndr [] items with
          | error p => rw [hl] at h; cases h
          | ok o =>
            rw [hl] at h
            simp only [bind, Except.bind] at h
            cases o with
            | error e => cases h
            | ok ns =>
              simp only at h
              cases err with
              | some e => cases h
              | none =>
                simp only at h
                injection h with h
                injection h with h
                subst h
                obtain ⟨h1, h2⟩ := (lpSplit_ok_iff rest items).1 hsp
                obtain ⟨ns', h3, h4, h5⟩ := (loop items).1 hl
                simp only [List.nil_append] at h3 h5
                subst h3
                exact ⟨items, by rw [(rdU32_some.1 hr).2, h2], h1, h4, h5⟩
  · rintro ⟨items, rfl, hs, hc, hn⟩
    rw [rdU32_some.2 ⟨by decide, rfl⟩]
    simp only
    rw [if_neg (by simp), (lpSplit_ok_iff _ items).2 ⟨hs, rfl⟩]
    simp only
    rw [(loop items).2 ⟨nodes, rfl, hc, hn⟩]
    rfl

theorem ChainOK.nil_nodes {env : Env} {parse : Bytes → Option Cert} {prev : Option LNode} {items : List Bytes}
    (h : ChainOK env parse prev items []) : items = [] := by
  cases items with
  | nil => rfl
  | cons b bs => cases h

/-- Errors only get appended. -/
def StampRes.Grows (r r' : StampRes) : Prop := ∃ es, r'.errors = r.errors ++ es

theorem StampRes.Grows.refl (r : StampRes) : r.Grows r := ⟨[], by simp⟩
theorem StampRes.Grows.trans {a b c : StampRes} (h : a.Grows b) (h' : b.Grows c) : a.Grows c := by
  obtain ⟨x, h⟩ := h
  obtain ⟨y, h'⟩ := h'
  exact ⟨x ++ y, by rw [h', h, List.append_assoc]⟩
theorem StampRes.Grows.mid {a b c : StampRes} (h : a.Grows b) (h' : b.Grows c) (he : c.errors = a.errors) :
    b.errors = a.errors ∧ c.errors = b.errors := by
  obtain ⟨x, h⟩ := h
  obtain ⟨y, h'⟩ := h'
  rw [h', h, List.append_assoc] at he
  have := List.append_right_eq_self.1 he
  simp only [List.append_eq_nil_iff] at this
  exact ⟨by rw [h, this.1, List.append_nil], by rw [h', this.2, List.append_nil]⟩

/-- The lineage without nodes. -/
def emptyLineageAttr : Bytes := leBytes 4 stampLineageId ++ leBytes 4 1

/-- Where the reported lineage and time come from. -/
def StampFrom (env : Env) (c : Cert) (r r' : StampRes) (xs : List Bytes) : Prop :=
  r'.cert = r.cert ∧
  (r'.lineage = [] ∨ r'.lineage = r.lineage ∨
    ∃ x ∈ xs, attrId x = stampLineageId ∧ StampLineageOK env (x.drop 4) c r'.lineage) ∧
  (r'.signingTime = r.signingTime ∨
    ∃ x ∈ xs, attrId x = stampTimeId ∧ r'.signingTime = some (toI64 (leNat ((x.drop 4).take 8)))) ∧
  (SW.stampFileMissing ∈ r'.warnings ↔ SW.stampFileMissing ∈ r.warnings)

theorem rdU32_attr {attr rest : Bytes} {id : Nat} (h : rdU32 attr = some (id, rest)) :
    attrId attr = id ∧ rest = attr.drop 4 ∧ 4 ≤ attr.length := by
  obtain ⟨h1, rfl⟩ := rdU32_some.1 h
  refine ⟨?_, by rw [drop_append_len (by simp)], by simp⟩
  rw [attrId, take_append_len (by simp), leNat_leBytes]
  omega

theorem stampAttrStep_sound {env : Env} {c : Cert} {r r' : StampRes} {attr : Bytes} {done : Bool}
    (h : stampAttrStep env c r attr = .ok (r', done)) :
    r.Grows r' ∧ (r'.errors = r.errors →
      StampFrom env c r r' [attr] ∧ ((done = true ∧ StampAttrOK env c attr) ∨ (done = false ∧ attr = emptyLineageAttr))) := by
  have fail : ∀ {e : SE} {r1 : StampRes}, r1.errors = r.errors → r1.addError e = r' →
      r.Grows r' ∧ (r'.errors = r.errors → StampFrom env c r r' [attr] ∧
        ((done = true ∧ StampAttrOK env c attr) ∨ (done = false ∧ attr = emptyLineageAttr))) := by
    intro e r1 he h1
    subst h1
    refine ⟨⟨[e], by simp [StampRes.addError, he]⟩, fun h2 => ?_⟩
    simp [StampRes.addError, he] at h2
  unfold stampAttrStep at h
  cases hr : rdU32 attr with
  | none =>
    rw [hr] at h
    simp only [Except.ok.injEq, Prod.mk.injEq] at h
    exact fail rfl h.1
  | some q =>
    obtain ⟨id, rest⟩ := q
    rw [hr] at h
    simp only at h
    obtain ⟨hid, hrest, hlen⟩ := rdU32_attr hr
    by_cases h1 : id = 0x9d6303f7
    · rw [if_pos h1] at h
      have hidl : attrId attr = stampLineageId := hid.trans h1
      have hnt : attrId attr ≠ stampTimeId := by rw [hidl]; decide
      cases hs : stampLineage env rest with
      | error p => rw [hs] at h; cases h
      | ok o =>
        rw [hs] at h
        simp only [bind, Except.bind] at h
        cases o with
        | error e =>
          simp only [Except.ok.injEq, Prod.mk.injEq] at h
          exact fail (r1 := { r with lineage := [] }) rfl h.1
        | ok nodes =>
          simp only at h
          obtain ⟨items, hb, hsm, hch, hnd⟩ := stampLineage_iff.1 hs
          cases hl : nodes.getLast? with
          | none =>
            rw [hl] at h
            simp only [Except.ok.injEq, Prod.mk.injEq] at h
            obtain ⟨rfl, rfl⟩ := h
            refine ⟨⟨[], by simp⟩, fun _ => ⟨⟨rfl, .inl rfl, .inl rfl, Iff.rfl⟩, .inr ⟨rfl, ?_⟩⟩⟩
            have hn : nodes = [] := by simpa using hl
            subst hn
            have hi := hch.nil_nodes
            subst hi
            have : attr = leBytes 4 id ++ rest := (rdU32_some.1 hr).2
            rw [this, hb, h1]; rfl
          | some last =>
            rw [hl] at h
            simp only at h
            split at h
            · simp only [Except.ok.injEq, Prod.mk.injEq] at h
              exact fail (r1 := { r with lineage := nodes }) rfl h.1
            · rename_i hraw
              have hraw : c.raw = last.cert.raw := Classical.byContradiction hraw
              simp only [Except.ok.injEq, Prod.mk.injEq] at h
              obtain ⟨rfl, rfl⟩ := h
              have hlin : StampLineageOK env (attr.drop 4) c nodes := by
                rw [← hrest]
                exact ⟨items, hb, hsm, hch, hnd, last, hl, hraw.symm⟩
              refine ⟨⟨[], by simp⟩, fun _ => ⟨⟨rfl, .inr (.inr ⟨attr, by simp, hidl, hlin⟩), .inl rfl, Iff.rfl⟩, .inl ⟨rfl, ?_⟩⟩⟩
              exact ⟨hlen, fun _ => ⟨nodes, hlin⟩, fun ht => absurd ht hnt⟩
    · rw [if_neg h1] at h
      have hnl : attrId attr ≠ stampLineageId := fun he => h1 (hid.symm.trans he)
      by_cases h2 : id = 0xe43c5946
      · rw [if_pos h2] at h
        have hidt : attrId attr = stampTimeId := hid.trans h2
        cases ht : rdU64 rest with
        | none =>
          rw [ht] at h
          simp only [Except.ok.injEq, Prod.mk.injEq] at h
          exact fail rfl h.1
        | some q =>
          obtain ⟨v, tl⟩ := q
          rw [ht] at h
          simp only at h
          split at h
          · simp only [Except.ok.injEq, Prod.mk.injEq] at h
            exact fail rfl h.1
          · rename_i hv
            simp only [Except.ok.injEq, Prod.mk.injEq] at h
            obtain ⟨rfl, rfl⟩ := h
            obtain ⟨hv1, hv2⟩ := rdU64_some.1 ht
            have hval : leNat ((attr.drop 4).take 8) = v := by
              rw [← hrest, hv2, take_append_len (by simp), leNat_leBytes]
              omega
            refine ⟨⟨[], by simp⟩, fun _ => ⟨⟨rfl, .inr (.inl rfl), .inr ⟨attr, by simp, hidt, by rw [hval]⟩, Iff.rfl⟩, .inl ⟨rfl, ?_⟩⟩⟩
            refine ⟨hlen, fun he => absurd he hnl, fun _ => ⟨?_, by rw [hval]; omega⟩⟩
            have := congrArg List.length hv2
            rw [hrest] at this
            simp at this
            omega
      · rw [if_neg h2] at h
        simp only [Except.ok.injEq, Prod.mk.injEq] at h
        obtain ⟨rfl, rfl⟩ := h
        refine ⟨⟨[], by simp [StampRes.addWarning]⟩, fun _ => ⟨⟨rfl, .inr (.inl rfl), .inl rfl, by simp [StampRes.addWarning]⟩, .inl ⟨rfl, ?_⟩⟩⟩
        exact ⟨hlen, fun he => absurd he hnl, fun he => absurd (hid.symm.trans he) h2⟩

theorem stampAttrStep_complete {env : Env} {c : Cert} {attr : Bytes} (h : StampAttrOK env c attr) (r : StampRes) :
    ∃ r', stampAttrStep env c r attr = .ok (r', true) ∧ r'.errors = r.errors := by
  obtain ⟨h1, h2, h3⟩ := h
  have hr : rdU32 attr = some (attrId attr, attr.drop 4) := rdU32_of_len h1
  unfold stampAttrStep
  rw [hr]
  simp only
  by_cases hl : attrId attr = 0x9d6303f7
  · rw [if_pos hl]
    obtain ⟨nodes, items, g1, g2, g3, g4, last, g5, g6⟩ := h2 hl
    rw [stampLineage_iff.2 ⟨items, g1, g2, g3, g4⟩]
    simp only [bind, Except.bind]
    rw [g5]
    simp only
    rw [if_neg (by simp [g6])]
    exact ⟨_, rfl, rfl⟩
  · rw [if_neg hl]
    by_cases ht : attrId attr = 0xe43c5946
    · rw [if_pos ht]
      obtain ⟨g1, g2⟩ := h3 ht
      have hu : rdU64 (attr.drop 4) = some (leNat ((attr.drop 4).take 8), (attr.drop 4).drop 8) := by
        unfold rdU64
        rw [if_neg (by simp; omega)]
      rw [hu]
      simp only
      rw [if_neg (by omega)]
      exact ⟨_, rfl, rfl⟩
    · rw [if_neg ht]
      exact ⟨_, rfl, rfl⟩

theorem stampAttrStep_empty (env : Env) (c : Cert) (r : StampRes) :
    ∃ r', stampAttrStep env c r emptyLineageAttr = .ok (r', false) ∧ r'.errors = r.errors := by
  have hr : rdU32 emptyLineageAttr = some (stampLineageId, leBytes 4 1) := rdU32_some.2 ⟨by decide, rfl⟩
  unfold stampAttrStep
  rw [hr]
  simp only
  rw [if_pos (show stampLineageId = 0x9d6303f7 from rfl)]
  rw [(stampLineage_iff (nodes := [])).2 ⟨[], by simp, (fun x hx => by cases hx), trivial, by simp⟩]
  exact ⟨_, rfl, rfl⟩

theorem StampFrom.trans {env : Env} {c : Cert} {a b d : StampRes} {x : Bytes} {xs : List Bytes}
    (h : StampFrom env c a b [x]) (h' : StampFrom env c b d xs) : StampFrom env c a d (x :: xs) := by
  obtain ⟨h0, h1, h2, h3⟩ := h
  obtain ⟨g0, g1, g2, g3⟩ := h'
  refine ⟨g0.trans h0, ?_, ?_, g3.trans h3⟩
  · rcases g1 with g | g | ⟨y, hy, g⟩
    · exact .inl g
    · rcases h1 with h | h | ⟨y, hy, h⟩
      · exact .inl (g.trans h)
      · exact .inr (.inl (g.trans h))
      · refine .inr (.inr ⟨y, by rw [List.mem_singleton.1 hy]; simp, h.1, ?_⟩)
        rw [g]; exact h.2
    · exact .inr (.inr ⟨y, by simp [hy], g⟩)
  · rcases g2 with g | ⟨y, hy, g⟩
    · rcases h2 with h | ⟨y, hy, h⟩
      · exact .inl (g.trans h)
      · exact .inr ⟨y, by rw [List.mem_singleton.1 hy]; simp, h.1, g.trans h.2⟩
    · exact .inr ⟨y, by simp [hy], g⟩

theorem StampFrom.mono {env : Env} {c : Cert} {a b : StampRes} {xs ys : List Bytes} (h : StampFrom env c a b xs)
    (hs : ∀ x ∈ xs, x ∈ ys) : StampFrom env c a b ys := by
  obtain ⟨h0, h1, h2, h3⟩ := h
  refine ⟨h0, ?_, ?_, h3⟩
  · rcases h1 with h | h | ⟨y, hy, h⟩
    · exact .inl h
    · exact .inr (.inl h)
    · exact .inr (.inr ⟨y, hs y hy, h⟩)
  · rcases h2 with h | ⟨y, hy, h⟩
    · exact .inl h
    · exact .inr ⟨y, hs y hy, h⟩

theorem StampFrom.refl (env : Env) (c : Cert) (r : StampRes) (xs : List Bytes) : StampFrom env c r r xs :=
  ⟨rfl, .inr (.inl rfl), .inl rfl, Iff.rfl⟩

theorem stampAttrFold_sound {env : Env} {c : Cert} (items : List Bytes) : ∀ {r r' : StampRes} {done : Bool},
    foldGo (stampAttrStep env c) r items = .ok (r', done) →
    r.Grows r' ∧ (r'.errors = r.errors → StampFrom env c r r' items ∧
      ((done = true ∧ ∀ x ∈ items, StampAttrOK env c x) ∨
       (done = false ∧ ∃ pre post, items = pre ++ emptyLineageAttr :: post ∧ ∀ x ∈ pre, StampAttrOK env c x))) := by
  induction items with
  | nil =>
    intro r r' done h
    simp only [foldGo, Except.ok.injEq, Prod.mk.injEq] at h
    obtain ⟨rfl, rfl⟩ := h
    exact ⟨.refl r, fun _ => ⟨.refl env c r [], .inl ⟨rfl, fun x hx => by cases hx⟩⟩⟩
  | cons a items ih =>
    intro r r' done h
    unfold foldGo at h
    cases hs : stampAttrStep env c r a with
    | error p => rw [hs] at h; cases h
    | ok q =>
      obtain ⟨r1, cont⟩ := q
      rw [hs] at h
      simp only [bind, Except.bind] at h
      obtain ⟨g1, g2⟩ := stampAttrStep_sound hs
      cases cont with
      | true =>
        simp only [if_true] at h
        obtain ⟨k1, k2⟩ := ih h
        refine ⟨g1.trans k1, fun he => ?_⟩
        obtain ⟨e1, e2⟩ := g1.mid k1 he
        obtain ⟨f1, f2⟩ := g2 e1
        obtain ⟨l1, l2⟩ := k2 e2
        refine ⟨f1.trans l1, ?_⟩
        rcases f2 with ⟨_, hok⟩ | ⟨hf, _⟩
        · rcases l2 with ⟨hd, hall⟩ | ⟨hd, pre, post, hi, hall⟩
          · refine .inl ⟨hd, fun x hx => ?_⟩
            rcases List.mem_cons.1 hx with rfl | hx
            · exact hok
            · exact hall x hx
          · refine .inr ⟨hd, a :: pre, post, by rw [hi]; rfl, fun x hx => ?_⟩
            rcases List.mem_cons.1 hx with rfl | hx
            · exact hok
            · exact hall x hx
        · cases hf
      | false =>
        simp only [Bool.false_eq_true, if_false, Except.ok.injEq, Prod.mk.injEq] at h
        obtain ⟨rfl, rfl⟩ := h
        refine ⟨g1, fun he => ?_⟩
        obtain ⟨f1, f2⟩ := g2 he
        refine ⟨f1.mono (by simp), ?_⟩
        rcases f2 with ⟨hf, _⟩ | ⟨_, ha⟩
        · cases hf
        · exact .inr ⟨rfl, [], items, by rw [ha]; rfl, fun x hx => by cases hx⟩

theorem stampAttrFold_all {env : Env} {c : Cert} (items : List Bytes) : ∀ (r : StampRes), (∀ x ∈ items, StampAttrOK env c x) →
    ∃ r', foldGo (stampAttrStep env c) r items = .ok (r', true) ∧ r'.errors = r.errors := by
  induction items with
  | nil => intro r _; exact ⟨r, rfl, rfl⟩
  | cons a items ih =>
    intro r h
    obtain ⟨r1, h1, e1⟩ := stampAttrStep_complete (h a (by simp)) r
    obtain ⟨r2, h2, e2⟩ := ih r1 (fun x hx => h x (by simp [hx]))
    refine ⟨r2, ?_, e2.trans e1⟩
    unfold foldGo
    rw [h1]
    exact h2

theorem stampAttrFold_empty {env : Env} {c : Cert} (pre post : List Bytes) : ∀ (r : StampRes), (∀ x ∈ pre, StampAttrOK env c x) →
    ∃ r', foldGo (stampAttrStep env c) r (pre ++ emptyLineageAttr :: post) = .ok (r', false) ∧ r'.errors = r.errors := by
  induction pre with
  | nil =>
    intro r _
    obtain ⟨r1, h1, e1⟩ := stampAttrStep_empty env c r
    refine ⟨r1, ?_, e1⟩
    rw [List.nil_append]
    unfold foldGo
    rw [h1]
    rfl
  | cons a pre ih =>
    intro r h
    obtain ⟨r1, h1, e1⟩ := stampAttrStep_complete (h a (by simp)) r
    obtain ⟨r2, h2, e2⟩ := ih r1 (fun x hx => h x (by simp [hx]))
    refine ⟨r2, ?_, e2.trans e1⟩
    rw [List.cons_append]
    unfold foldGo
    rw [h1]
    exact h2

theorem stampAttributes_sound {env : Env} {c : Cert} {data : Bytes} {r r' : StampRes}
    (h : stampAttributes env c data r = .ok r') :
    r.Grows r' ∧ (r'.errors = r.errors → StampAttrsOK env c data ∧
      ∃ xs, (∀ x ∈ xs, HasStampAttr data x) ∧ StampFrom env c r r' xs) := by
  unfold stampAttributes at h
  cases hr : rdLP data with
  | error e =>
    rw [hr] at h
    simp only [Except.ok.injEq] at h
    subst h
    exact ⟨⟨[_], rfl⟩, fun he => by simp [StampRes.addError] at he⟩
  | ok q =>
    obtain ⟨attrs, tail⟩ := q
    rw [hr] at h
    obtain ⟨hsm, hdata⟩ := rdLP_ok hr
    simp only at h
    cases hsp : lpSplit attrs with
    | mk items err =>
      rw [hsp] at h
      simp only at h
      obtain ⟨rst, p1, p2, p3⟩ := lpSplit_spec attrs
      rw [hsp] at p1 p2 p3
      simp only at p1 p2 p3
      cases hf : foldGo (stampAttrStep env c) r items with
      | error p => rw [hf] at h; cases h
      | ok q =>
        obtain ⟨r1, done⟩ := q
        rw [hf] at h
        simp only [bind, Except.bind] at h
        obtain ⟨g1, g2⟩ := stampAttrFold_sound items hf
        have hhas : ∀ x ∈ items, HasStampAttr data x := by
          intro x hx
          obtain ⟨pre, post, rfl⟩ := List.append_of_mem hx
          refine ⟨attrs, tail, pre, lpSeq post ++ rst, hdata, hsm, ?_, fun y hy => p2 y ?_⟩
          · rw [p1]; simp [lpSeq]
          · rcases List.mem_append.1 hy with hy | hy
            · simp [hy]
            · rw [List.mem_singleton.1 hy]; simp
        cases done with
        | false =>
          simp only [Bool.not_false, if_true, Except.ok.injEq] at h
          subst h
          refine ⟨g1, fun he => ?_⟩
          obtain ⟨f1, f2⟩ := g2 he
          refine ⟨?_, items, hhas, f1⟩
          rcases f2 with ⟨hf, _⟩ | ⟨_, pre, post, hi, hall⟩
          · cases hf
          · refine ⟨attrs, tail, hdata, hsm, .inr ⟨pre, emptyLineageAttr, lpSeq post ++ rst, ?_, fun y hy => p2 y ?_, hall, rfl⟩⟩
            · rw [p1, hi]; simp [lpSeq]
            · rw [hi]
              rcases List.mem_append.1 hy with hy | hy
              · simp [hy]
              · rw [List.mem_singleton.1 hy]; simp
        | true =>
          simp only [Bool.not_true, Bool.false_eq_true, if_false] at h
          cases err with
          | some e =>
            simp only [Except.ok.injEq] at h
            subst h
            have hgr : r1.Grows (r1.addError (.attrRead e)) := ⟨[_], rfl⟩
            refine ⟨g1.trans hgr, fun he => ?_⟩
            have := (g1.mid hgr he).2
            simp [StampRes.addError] at this
          | none =>
            simp only [Except.ok.injEq] at h
            subst h
            refine ⟨g1, fun he => ?_⟩
            obtain ⟨f1, f2⟩ := g2 he
            refine ⟨?_, items, hhas, f1⟩
            rcases f2 with ⟨_, hall⟩ | ⟨hf, _⟩
            · have := (lpSplit_ok_iff attrs items).1 hsp
              exact ⟨attrs, tail, hdata, hsm, .inl ⟨items, ⟨this.2, this.1⟩, hall⟩⟩
            · cases hf

theorem lpSplitAux_prefix (pre : List Bytes) : ∀ (rest : Bytes) (fuel : Nat), (∀ x ∈ pre, Small x) →
    (lpSeq pre ++ rest).length < fuel →
    ∃ post err, lpSplitAux fuel (lpSeq pre ++ rest) = (pre ++ post, err) := by
  induction pre with
  | nil => intro rest fuel _ _; exact ⟨_, _, rfl⟩
  | cons x pre ih =>
    intro rest fuel hs hf
    cases fuel with
    | zero => omega
    | succ fuel =>
      unfold lpSplitAux
      rw [if_neg (by rw [lpSeq_cons]; intro h; have := congrArg List.length h; simp at this)]
      rw [lpSeq_cons, List.append_assoc, rdLP_lp x _ (hs x (by simp))]
      simp only
      obtain ⟨post, err, h⟩ := ih rest fuel (fun y hy => hs y (by simp [hy])) (by
        rw [lpSeq_cons] at hf; simp at hf ⊢; omega)
      rw [h]
      exact ⟨post, err, rfl⟩

theorem lpSplit_prefix (pre : List Bytes) (rest : Bytes) (hs : ∀ x ∈ pre, Small x) :
    ∃ post err, lpSplit (lpSeq pre ++ rest) = (pre ++ post, err) := lpSplitAux_prefix pre rest _ hs (by omega)

theorem stampAttributes_complete {env : Env} {c : Cert} {data : Bytes} (h : StampAttrsOK env c data) (r : StampRes) :
    ∃ r', stampAttributes env c data r = .ok r' ∧ r'.errors = r.errors := by
  obtain ⟨attrs, tail, rfl, hsm, h⟩ := h
  unfold stampAttributes
  rw [rdLP_lp attrs tail hsm]
  simp only
  rcases h with ⟨recs, hl, hall⟩ | ⟨pre, x, rest, h1, h2, h3, h4⟩
  · rw [(lpSplit_ok_iff attrs recs).2 ⟨hl.2, hl.1⟩]
    simp only
    obtain ⟨r1, g1, g2⟩ := stampAttrFold_all recs r hall
    rw [g1]
    exact ⟨r1, rfl, g2⟩
  · obtain ⟨post, err, hsp⟩ := lpSplit_prefix (pre ++ [x]) rest h2
    rw [← h1] at hsp
    rw [hsp]
    simp only
    obtain ⟨r1, g1, g2⟩ := stampAttrFold_empty (env := env) (c := c) pre post r h3
    rw [show pre ++ [x] ++ post = pre ++ emptyLineageAttr :: post by rw [h4]; simp [emptyLineageAttr], g1]
    exact ⟨r1, rfl, g2⟩

/-! ## Signed schemes -/

theorem stampSchemes_iff (id : Int) (items : List Bytes) : ∀ (st : Option Bytes) (o : Option Bytes),
    stampSchemes id st items = .ok o ↔
      (∀ x ∈ items, ∃ k s t, x = leBytes 4 k ++ lp s ++ t ∧ k < 2 ^ 32 ∧ Small s) ∧
      ((o = st ∧ ∀ x ∈ items, toI32 (recAlg x) ≠ id) ∨
       ∃ pre k s t post, items = pre ++ (leBytes 4 k ++ lp s ++ t) :: post ∧ k < 2 ^ 32 ∧ Small s ∧ toI32 k = id ∧
        (∀ x ∈ post, toI32 (recAlg x) ≠ id) ∧ o = some s) := by
  induction items with
  | nil =>
    intro st o
    simp only [stampSchemes, Except.ok.injEq]
    constructor
    · rintro rfl; exact ⟨fun x hx => (by cases hx), .inl ⟨rfl, fun x hx => by cases hx⟩⟩
    · rintro ⟨_, ⟨h, _⟩ | ⟨pre, k, s, t, post, h, _⟩⟩
      · exact h.symm
      · cases pre <;> cases h
  | cons x items ih =>
    intro st o
    have hrec : ∀ {k : Nat} {r : Bytes}, k < 2 ^ 32 → recAlg (leBytes 4 k ++ r) = k := by
      intro k r hk
      rw [recAlg, take_append_len (by simp), leNat_leBytes]
      omega
    unfold stampSchemes stampSchemeStep
    cases hr : rdU32 x with
    | none =>
      simp only [reduceCtorEq, false_iff, not_and]
      intro h
      obtain ⟨k, s, t, rfl, _⟩ := h x (by simp)
      have := rdU32_none.1 hr
      simp at this; omega
    | some q =>
      obtain ⟨k, rest⟩ := q
      obtain ⟨hk, rfl⟩ := rdU32_some.1 hr
      simp only
      cases hl : rdLP rest with
      | error e =>
        simp only [reduceCtorEq, false_iff, not_and]
        intro h
        obtain ⟨k', s, t, he, hk', hs⟩ := h _ (List.mem_cons_self)
        exfalso
        have := congrArg (List.drop 4) he
        rw [drop_append_len (by simp), List.append_assoc, drop_append_len (by simp)] at this
        rw [this, rdLP_lp s t hs] at hl
        cases hl
      | ok q =>
        obtain ⟨s, t⟩ := q
        obtain ⟨hs, rfl⟩ := rdLP_ok hl
        simp only
        rw [ih]
        constructor
        · rintro ⟨h1, h2⟩
          refine ⟨fun x hx => ?_, ?_⟩
          · rcases List.mem_cons.1 hx with rfl | hx
            · exact ⟨k, s, t, by simp, hk, hs⟩
            · exact h1 x hx
          · rcases h2 with ⟨h2, h3⟩ | ⟨pre, k', s', t', post, he, h3⟩
            · by_cases hid : toI32 k = id
              · rw [if_pos hid] at h2
                exact .inr ⟨[], k, s, t, items, by simp, hk, hs, hid, h3, h2⟩
              · rw [if_neg hid] at h2
                refine .inl ⟨h2, fun x hx => ?_⟩
                rcases List.mem_cons.1 hx with rfl | hx
                · rw [hrec hk]; exact hid
                · exact h3 x hx
            · exact .inr ⟨(leBytes 4 k ++ (lp s ++ t)) :: pre, k', s', t', post, by rw [he]; rfl, h3⟩
        · rintro ⟨h1, h2⟩
          refine ⟨fun x hx => h1 x (by simp [hx]), ?_⟩
          rcases h2 with ⟨rfl, h3⟩ | ⟨pre, k', s', t', post, he, h4, h5, h6, h7, h8⟩
          · left
            have h0 := h3 _ (List.mem_cons_self)
            rw [hrec hk] at h0
            exact ⟨by rw [if_neg h0], fun x hx => h3 x (by simp [hx])⟩
          · cases pre with
            | nil =>
              rw [List.nil_append] at he
              injection he with he1 he2
              subst he2
              have hkk : k = k' := by
                have := congrArg recAlg he1
                rw [hrec hk, List.append_assoc, hrec h4] at this
                exact this
              have hss : s = s' := by
                have := congrArg (List.drop 4) he1
                rw [drop_append_len (by simp), List.append_assoc, drop_append_len (by simp)] at this
                have a1 := rdLP_lp s t hs
                rw [this, rdLP_lp s' t' h5] at a1
                injection a1 with a1
                exact (Prod.mk.inj a1).1.symm
              left
              refine ⟨?_, h7⟩
              rw [if_pos (by rw [hkk]; exact h6), h8, hss]
            | cons p pre =>
              rw [List.cons_append] at he
              injection he with he1 he2
              exact .inr ⟨pre, k', s', t', post, he2, h4, h5, h6, h7, h8⟩

/-! ## The whole block -/

/-- Everything after the certificate hash. -/
def StampTail (env : Env) (Signed : PubKey → Bytes → Bytes → Prop) (stampRest : Bytes) (id : Int) (msg : Bytes) (c : Cert)
    (attrs : Option Bytes) : Prop :=
  ∃ schemes rest sigs, stampRest = lp schemes ++ rest ∧ Small schemes ∧ StampScheme schemes id sigs ∧ Signed c.key msg sigs ∧
    match attrs with
    | none => rest = []
    | some data => rest ≠ [] ∧ ∃ asigs, StampAttrPart rest data asigs ∧ Signed c.key data asigs ∧ StampAttrsOK env c data

theorem stampTail_sound {env : Env} {sid : Nat} {minSdk maxSdk : Int} {b : Bytes} {c : Cert} {cd : Digests} {r r' : StampRes}
    (h : stampCheckSignatures env sid minSdk maxSdk b c cd r = .ok r') (he : r'.errors = r.errors) :
    ∃ attrs xs, StampTail env (fun k m s => StampSigned env k minSdk maxSdk m s) b (stampSchemeId sid)
        (signatureSchemeDigest env cd) c attrs ∧
      (∀ x ∈ xs, ∃ data, attrs = some data ∧ HasStampAttr data x) ∧ StampFrom env c r r' xs := by
  unfold stampCheckSignatures at h
  cases hr : rdLP b with
  | error e =>
    rw [hr] at h
    simp only [Except.ok.injEq] at h
    subst h
    simp [StampRes.addError] at he
  | ok q =>
    obtain ⟨schemes, rest⟩ := q
    obtain ⟨hsm, hb⟩ := rdLP_ok hr
    rw [hr] at h
    simp only at h
    cases hsp : lpSplit schemes with
    | mk items err =>
      rw [hsp] at h
      simp only at h
      change (match stampSchemes (stampSchemeId sid) none items with
        | .error e => _
        | .ok found => _) = _ at h
      cases hss : stampSchemes (stampSchemeId sid) none items with
      | error e =>
        rw [hss] at h
        simp only [Except.ok.injEq] at h
        subst h
        simp [StampRes.addError] at he
      | ok found =>
        rw [hss] at h
        simp only at h
        cases err with
        | some e =>
          simp only [Except.ok.injEq] at h
          subst h
          simp [StampRes.addError] at he
        | none =>
          simp only at h
          cases found with
          | none =>
            simp only [Except.ok.injEq] at h
            subst h
            simp [StampRes.addError] at he
          | some sigs =>
            simp only at h
            have hscheme : StampScheme schemes (stampSchemeId sid) sigs := by
              obtain ⟨k1, k2⟩ := (lpSplit_ok_iff schemes items).1 hsp
              obtain ⟨g1, g2⟩ := (stampSchemes_iff _ items none (some sigs)).1 hss
              rcases g2 with ⟨g2, _⟩ | ⟨pre, k, s, t, post, g2, g3, g4, g5, g6, g7⟩
              · cases g2
              · injection g7 with g7
                subst g7
                exact ⟨items, ⟨k2, k1⟩, g1, pre, k, t, post, g2, g3, g4, g5, g6⟩
            cases hv : stampVerifySignature env minSdk maxSdk (signatureSchemeDigest env cd) c sigs r with
            | error p => rw [hv] at h; cases h
            | ok q =>
              obtain ⟨r1, ok⟩ := q
              rw [hv] at h
              simp only [bind, Except.bind] at h
              rcases stampVerify_sound hv with ⟨rfl, hw, hsig⟩ | ⟨rfl, hf⟩
              · simp only [Bool.not_true, Bool.false_eq_true, if_false] at h
                have fromW : ∀ {r1 : StampRes} {ys : List Bytes}, r.Warned r1 → StampFrom env c r r1 ys := by
                  intro r1 ys hw
                  obtain ⟨ws, rfl, hn⟩ := hw
                  exact ⟨rfl, .inr (.inl rfl), .inl rfl, by simp [hn]⟩
                by_cases hz : rest.length = 0
                · rw [if_pos hz] at h
                  simp only [Except.ok.injEq] at h
                  subst h
                  refine ⟨none, [], ⟨schemes, rest, sigs, hb, hsm, hscheme, hsig, ?_⟩, fun x hx => (by cases hx), fromW hw⟩
                  simpa using hz
                · rw [if_neg hz] at h
                  cases hr2 : rdLP rest with
                  | error e =>
                    rw [hr2] at h
                    simp only [Except.ok.injEq] at h
                    subst h
                    simp [StampRes.addError, hw.errors] at he
                  | ok q =>
                    obtain ⟨data, rest2⟩ := q
                    rw [hr2] at h
                    simp only at h
                    cases hr3 : rdLP rest2 with
                    | error e =>
                      rw [hr3] at h
                      simp only [Except.ok.injEq] at h
                      subst h
                      simp [StampRes.addError, hw.errors] at he
                    | ok q =>
                      obtain ⟨asigs, tail⟩ := q
                      rw [hr3] at h
                      simp only at h
                      cases hv2 : stampVerifySignature env minSdk maxSdk data c asigs r1 with
                      | error p => rw [hv2] at h; cases h
                      | ok q =>
                        obtain ⟨r2, ok2⟩ := q
                        rw [hv2] at h
                        simp only at h
                        rcases stampVerify_sound hv2 with ⟨rfl, hw2, hsig2⟩ | ⟨rfl, hf⟩
                        · simp only [Bool.not_true, Bool.false_eq_true, if_false] at h
                          obtain ⟨g1, g2⟩ := stampAttributes_sound h
                          have hw3 := hw.trans hw2
                          obtain ⟨g3, xs, g4, g5⟩ := g2 (by rw [he, hw3.errors])
                          obtain ⟨s1, s2⟩ := rdLP_ok hr2
                          obtain ⟨s3, s4⟩ := rdLP_ok hr3
                          refine ⟨some data, xs, ⟨schemes, rest, sigs, hb, hsm, hscheme, hsig, ?_, asigs,
                            ⟨tail, by rw [s2, s4]; simp, s1, s3⟩, hsig2, g3⟩, fun x hx => ⟨data, rfl, g4 x hx⟩, ?_⟩
                          · intro hn; rw [hn] at hz; exact hz rfl
                          · obtain ⟨ws, hr2e, hn⟩ := hw3
                            rw [hr2e] at g5
                            obtain ⟨u1, u2, u3, u4⟩ := g5
                            exact ⟨u1, u2, u3, u4.trans (by simp [hn])⟩
                        · simp only [Bool.not_false, if_true, Except.ok.injEq] at h
                          subst h
                          obtain ⟨es, e1, e2⟩ := StampRes.Failed.of_warned hw hf
                          rw [he] at e2
                          exact absurd (List.self_eq_append_right.1 e2) e1
              · simp only [Bool.not_false, if_true, Except.ok.injEq] at h
                subst h
                obtain ⟨es, e1, e2⟩ := hf
                rw [he] at e2
                exact absurd (List.self_eq_append_right.1 e2) e1

theorem stampTail_complete {env : Env} {sid : Nat} {minSdk maxSdk : Int} {b : Bytes} {c : Cert} {cd : Digests} {attrs : Option Bytes}
    (h : StampTail env (fun k m s => StampSignedAll env k minSdk maxSdk m s) b (stampSchemeId sid)
      (signatureSchemeDigest env cd) c attrs) (r : StampRes) :
    ∃ r', stampCheckSignatures env sid minSdk maxSdk b c cd r = .ok r' ∧ r'.errors = r.errors := by
  obtain ⟨schemes, rest, sigs, rfl, hsm, ⟨items, hl, hwf, pre, k, t, post, he, hk, hss, hid, hpost⟩, hsig, ha⟩ := h
  unfold stampCheckSignatures
  rw [rdLP_lp schemes rest hsm]
  simp only
  rw [(lpSplit_ok_iff schemes items).2 ⟨hl.2, hl.1⟩]
  simp only
  have hns : stampSchemes (if sid = 31 then 3 else (sid : Int)) none items = .ok (some sigs) :=
    (stampSchemes_iff (stampSchemeId sid) items none (some sigs)).2 ⟨hwf, .inr ⟨pre, k, sigs, t, post, he, hk, hss, hid, hpost, rfl⟩⟩
  rw [hns]
  simp only
  obtain ⟨r1, h1, hw1⟩ := stampVerify_complete hsig r
  rw [h1]
  simp only [bind, Except.bind, Bool.not_true, Bool.false_eq_true, if_false]
  cases attrs with
  | none =>
    simp only at ha
    subst ha
    exact ⟨r1, rfl, hw1.errors⟩
  | some data =>
    obtain ⟨hne, asigs, ⟨tail, rfl, s1, s2⟩, hsig2, hattr⟩ := ha
    rw [if_neg (by intro h; exact hne (List.length_eq_zero_iff.1 h))]
    rw [List.append_assoc, rdLP_lp data _ s1]
    simp only
    rw [rdLP_lp asigs tail s2]
    simp only
    obtain ⟨r2, h2, hw2⟩ := stampVerify_complete hsig2 r1
    rw [h2]
    simp only [Bool.not_true, Bool.false_eq_true, if_false]
    obtain ⟨r3, h3, e3⟩ := stampAttributes_complete hattr r2
    exact ⟨r3, h3, by rw [e3, hw2.errors, hw1.errors]⟩

theorem v1ContentDigest_snd (env : Env) (zip : Zip) (r : StampRes) :
    (v1ContentDigest env zip r).2 = jarManifestDigest env zip ∧ (v1ContentDigest env zip r).1.errors = r.errors ∧
    (v1ContentDigest env zip r).1.cert = r.cert ∧ (v1ContentDigest env zip r).1.lineage = r.lineage ∧
    (v1ContentDigest env zip r).1.signingTime = r.signingTime ∧
    (SW.stampFileMissing ∈ (v1ContentDigest env zip r).1.warnings ↔ SW.stampFileMissing ∈ r.warnings) := by
  unfold v1ContentDigest jarManifestDigest manifestName
  cases zip.file (b!"META-INF/MANIFEST.MF") with
  | none => simp
  | some f =>
    simp only [show 128 * 1024 * 1024 = 134217728 from rfl]
    cases f.readAll 134217728 <;> simp [StampRes.addWarning]

/-- The digests the stamp is checked against. -/
def stampCd (env : Env) (zip : Zip) (cd : Digests) : Digests :=
  if cd.length = 0 then [(CD.nonChunked256, jarManifestDigest env zip)] else cd

theorem stampCd_digests (env : Env) (zip : Zip) (cd : Digests) : mget (stampCd env zip cd) = stampDigests cd (jarManifestDigest env zip) := by
  funext t
  unfold stampCd stampDigests
  by_cases h : cd = []
  · subst h
    rw [if_pos (show ([] : Digests).length = 0 from rfl), if_pos (show ([] : Digests) = [] from rfl), mget_cons]
    by_cases ht : CD.nonChunked256 = t
    · rw [if_pos ht, if_pos ht.symm]
    · rw [if_neg ht, if_neg (fun h => ht h.symm)]; rfl
  · rw [if_neg (fun h' => h (List.length_eq_zero_iff.1 h')), if_neg h]
    rfl

theorem stampCd_nodup (env : Env) (zip : Zip) {cd : Digests} (h : KeysNodup cd) : KeysNodup (stampCd env zip cd) := by
  unfold stampCd
  split
  · simp [KeysNodup]
  · exact h

theorem verifyStamp_sound {env : Env} {zip : Zip} {sid : Nat} {minSdk maxSdk : Int} {block : Option Bytes} {cd : Digests}
    {r : StampRes} (hnd : KeysNodup cd) (h : verifyStamp env zip sid minSdk maxSdk block cd = .ok (some r)) (he : r.errors = [])
    (hm : SW.stampFileMissing ∉ r.warnings) :
    ∃ b c attrs, block = some b ∧ r.cert = some c ∧
      StampValid env (fun k m s => StampSigned env k minSdk maxSdk m s) zip b (stampSchemeId sid)
        (stampDigests cd (jarManifestDigest env zip)) c attrs ∧
      (r.lineage = [] ∨ ∃ data x, attrs = some data ∧ HasStampAttr data x ∧ attrId x = stampLineageId ∧
        StampLineageOK env (x.drop 4) c r.lineage) ∧
      (r.signingTime = none ∨ ∃ data x, attrs = some data ∧ HasStampAttr data x ∧ attrId x = stampTimeId ∧
        r.signingTime = some (toI64 (leNat ((x.drop 4).take 8)))) := by
  unfold verifyStamp at h
  cases block with
  | none =>
    simp only at h
    split at h
    · simp only [Except.ok.injEq, Option.some.injEq] at h
      subst h
      simp [StampRes.addError] at he
    · simp at h
  | some b =>
    simp only at h
    cases h1 : rdLP b with
    | error e =>
      rw [h1] at h
      simp only [Except.ok.injEq, Option.some.injEq] at h
      subst h
      simp [StampRes.addError] at he
    | ok q =>
      obtain ⟨sb, tail⟩ := q
      rw [h1] at h
      simp only at h
      cases h2 : rdLP sb with
      | error e =>
        rw [h2] at h
        simp only [Except.ok.injEq, Option.some.injEq] at h
        subst h
        simp [StampRes.addError] at he
      | ok q =>
        obtain ⟨encoded, rest⟩ := q
        rw [h2] at h
        simp only at h
        cases h3 : env.parseCertAndr encoded with
        | none =>
          rw [h3] at h
          simp only [Except.ok.injEq, Option.some.injEq] at h
          subst h
          simp [StampRes.addError] at he
        | some c =>
          rw [h3] at h
          simp only at h
          cases h4 : zip.file stampEntryName with
          | none =>
            rw [h4] at h
            simp only [Except.ok.injEq, Option.some.injEq] at h
            subst h
            simp [StampRes.addWarning] at hm
          | some entry =>
            rw [h4] at h
            simp only at h
            have hr0 : ∃ r0 : StampRes, (if cd.length = 0 then
                ((v1ContentDigest env zip ({ cert := some c } : StampRes)).1,
                  [(CD.nonChunked256, (v1ContentDigest env zip ({ cert := some c } : StampRes)).2)])
                else (({ cert := some c } : StampRes), cd)) = (r0, stampCd env zip cd) ∧
                r0.errors = [] ∧ r0.cert = some c ∧ r0.lineage = [] ∧ r0.signingTime = none ∧ SW.stampFileMissing ∉ r0.warnings := by
              obtain ⟨k1, k2, k3, k4, k5, k6⟩ := v1ContentDigest_snd env zip ({ cert := some c } : StampRes)
              unfold stampCd
              by_cases hz : cd.length = 0
              · rw [if_pos hz, if_pos hz, k1]
                exact ⟨_, rfl, k2, k3, k4, k5, fun hh => by simpa using k6.1 hh⟩
              · rw [if_neg hz, if_neg hz]
                exact ⟨_, rfl, rfl, rfl, rfl, rfl, by simp⟩
            obtain ⟨r0, hr0, e1, e2, e3, e4, e5⟩ := hr0
            simp only [hr0] at h
            cases h5 : entry.readAll 65536 with
            | none =>
              rw [h5] at h
              simp only [Except.ok.injEq, Option.some.injEq] at h
              subst h
              simp [StampRes.addError] at he
            | some hash =>
              rw [h5] at h
              simp only at h
              split at h
              · simp only [Except.ok.injEq, Option.some.injEq] at h
                subst h
                simp [StampRes.addError] at he
              · rename_i hlt
                split at h
                · simp only [Except.ok.injEq, Option.some.injEq] at h
                  subst h
                  simp [StampRes.addError] at he
                · rename_i hhash
                  have hhash : env.sha256 c.raw = hash := Classical.byContradiction hhash
                  cases h6 : stampCheckSignatures env sid minSdk maxSdk rest c (stampCd env zip cd) r0 with
                  | error p => rw [h6] at h; cases h
                  | ok r1 =>
                    rw [h6] at h
                    simp only [bind, Except.bind, Except.ok.injEq, Option.some.injEq] at h
                    subst h
                    obtain ⟨attrs, xs, ⟨schemes, rest', sigs, g1, g2, g3, g4, g5⟩, g6, f1, f2, f3, f4⟩ := stampTail_sound h6 (by rw [he, e1])
                    rw [signatureSchemeDigest_eq env (stampCd_nodup env zip hnd), stampCd_digests] at g4
                    obtain ⟨s1, s2⟩ := rdLP_ok h1
                    obtain ⟨s3, s4⟩ := rdLP_ok h2
                    have hsb : sb = lp encoded ++ lp schemes ++ rest' := by rw [s4, g1, List.append_assoc]
                    refine ⟨b, c, attrs, rfl, by rw [f1, e2], ⟨encoded, schemes, rest', sigs, ⟨tail, by rw [s2, hsb], by rw [← hsb]; exact s1, s3, g2⟩,
                      h3, ⟨entry, h4, by rw [hhash]; exact h5, by rw [hhash]; omega⟩, g3, g4, g5⟩, ?_, ?_⟩
                    · rw [e3] at f2
                      rcases f2 with f | f | ⟨x, hx, f⟩
                      · exact .inl f
                      · exact .inl f
                      · obtain ⟨data, d1, d2⟩ := g6 x hx
                        exact .inr ⟨data, x, d1, d2, f⟩
                    · rw [e4] at f3
                      rcases f3 with f | ⟨x, hx, f⟩
                      · exact .inl f
                      · obtain ⟨data, d1, d2⟩ := g6 x hx
                        exact .inr ⟨data, x, d1, d2, f⟩

theorem verifyStamp_complete {env : Env} {zip : Zip} {sid : Nat} {minSdk maxSdk : Int} {b : Bytes} {cd : Digests}
    {c : Cert} {attrs : Option Bytes} (hnd : KeysNodup cd)
    (h : StampValid env (fun k m s => StampSignedAll env k minSdk maxSdk m s) zip b (stampSchemeId sid)
        (stampDigests cd (jarManifestDigest env zip)) c attrs) :
    ∃ r, verifyStamp env zip sid minSdk maxSdk (some b) cd = .ok (some r) ∧ r.errors = [] := by
  obtain ⟨encoded, schemes, rest, sigs, ⟨tail, rfl, s1, s2, s3⟩, hp, ⟨entry, z1, z2, z3⟩, hsch, hsig, hat⟩ := h
  unfold verifyStamp
  simp only
  rw [rdLP_lp _ tail s1]
  simp only
  rw [List.append_assoc, rdLP_lp encoded _ s2]
  simp only
  rw [hp]
  simp only
  rw [show zip.file stampEntryName = some entry from z1]
  simp only
  have hr0 : ∃ r0 : StampRes, (if cd.length = 0 then
      ((v1ContentDigest env zip ({ cert := some c } : StampRes)).1,
        [(CD.nonChunked256, (v1ContentDigest env zip ({ cert := some c } : StampRes)).2)])
      else (({ cert := some c } : StampRes), cd)) = (r0, stampCd env zip cd) ∧ r0.errors = [] := by
    obtain ⟨k1, k2, k3, k4, k5, k6⟩ := v1ContentDigest_snd env zip ({ cert := some c } : StampRes)
    unfold stampCd
    by_cases hz : cd.length = 0
    · rw [if_pos hz, if_pos hz, k1]
      exact ⟨_, rfl, k2⟩
    · rw [if_neg hz, if_neg hz]
      exact ⟨_, rfl, rfl⟩
  obtain ⟨r0, hr0, e0⟩ := hr0
  simp only [hr0, z2]
  rw [if_neg (by omega), if_neg (by simp)]
  obtain ⟨r1, g1, g2⟩ := stampTail_complete (sid := sid) (minSdk := minSdk) (maxSdk := maxSdk) (cd := stampCd env zip cd) (c := c)
    (attrs := attrs) (b := lp schemes ++ rest) ⟨schemes, rest, sigs, rfl, s3, hsch, by
      rw [signatureSchemeDigest_eq env (stampCd_nodup env zip hnd), stampCd_digests]; exact hsig, hat⟩ r0
  rw [g1]
  exact ⟨r1, rfl, by rw [g2, e0]⟩

end Apk
