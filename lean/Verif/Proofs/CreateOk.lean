import Verif.Proofs.CreateLoop
import Verif.Proofs.P7Written
/-! # When the extensions of a template can be written -/
namespace Apk
namespace Cre

/-- Something is written. -/
def Wr (m : MarEnv) (t : Ty) (mp : MP) (v : t.interp) : Prop := ∃ b, makeField m t mp v = .ok b

/-- All fields are written. -/
def WrAll (m : MarEnv) (fs : Fields) (v : fs.interp) : Prop := ∃ b, makeFields m fs v = .ok b

/-- Parameters that make no trouble. -/
structure Plain (mp : MP) : Prop where
  time : mp.timeType = 0
  string : mp.stringType = 0
  set : mp.set = false

theorem ft_ok {mp : MP} (h : Plain mp) {om c : Bool} {t0 t : Int} {body : Int → Except MErr Bytes} :
    (∃ b, fieldTagged mp om t0 c (.ok t) body = .ok b) ↔ (om = true ∨ ∃ b, body t = .ok b) := by
  cases om with
  | true => simp [fieldTagged]
  | false =>
    have hc : checkParams mp t0 = .ok () := by
      unfold checkParams
      rw [if_neg (fun h' => h'.1 h.time), if_neg (fun h' => h'.1 h.string)]
    have hs : setTag mp t = .ok t := by unfold setTag; rw [if_neg (by rw [h.set]; simp)]
    have e : fieldTagged mp false t0 c (.ok t) body = (body t >>= fun b => Except.ok (tagged mp t c b)) := by
      unfold fieldTagged
      rw [if_neg (by simp), hc]
      show (setTag mp t >>= fun t => body t >>= fun b => Except.ok (tagged mp t c b)) = _
      rw [hs]; rfl
    rw [e]
    cases hb : body t with
    | error x =>
      constructor
      · rintro ⟨b, h⟩; cases h
      · rintro (h | ⟨b, h⟩) <;> cases h
    | ok x => exact ⟨fun _ => .inr ⟨x, rfl⟩, fun _ => ⟨_, rfl⟩⟩

theorem plain0 : Plain {} := ⟨rfl, rfl, rfl⟩

theorem wr_cons {m : MarEnv} {tag : Bytes} {t : Ty} {fs : Fields} (v : t.interp) (vs : fs.interp) :
    WrAll m (.cons tag t fs) ((v, vs) : t.interp × fs.interp) ↔ Wr m t (parseMP tag) v ∧ WrAll m fs vs := by
  constructor
  · rintro ⟨b, h⟩
    obtain ⟨x, xs, h1, h2, _⟩ := P7S.cons_ok v vs h
    exact ⟨⟨x, h1⟩, ⟨xs, h2⟩⟩
  · rintro ⟨⟨x, h1⟩, ⟨xs, h2⟩⟩
    refine ⟨x ++ xs, (Mar.makeFields_cons _).trans ?_⟩
    refine (congrArg (fun o => o >>= _) h1).trans ?_
    exact (congrArg (fun o => o >>= fun bs => Except.ok (x ++ bs)) h2).trans rfl

theorem wr_nil {m : MarEnv} (v : Fields.nil.interp) : WrAll m .nil v := ⟨[], Mar.makeFields_nil v⟩

theorem wr_struct {m : MarEnv} {mp : MP} (hp : Plain mp) (hr : mp.optional = false) (he : mp.omitEmpty = false) {fs : Fields} (raw : Bytes) (v : fs.interp) :
    Wr m (.struct false fs) mp ((raw, v) : Bytes × fs.interp) ↔ WrAll m fs v := by
  have e := Mar.make_struct (menv := m) (raw := false) (fs := fs) (mp := mp) ((raw, v) : Bytes × fs.interp)
  unfold Wr
  rw [e]
  refine (ft_ok hp).trans ?_
  constructor
  · rintro (h | ⟨b, h⟩)
    · exact absurd ((Mar.omits_required hr he _ _).symm.trans h) (by simp)
    · exact ⟨b, h⟩
  · rintro ⟨b, h⟩; exact .inr ⟨b, h⟩

/-- A struct in a field that may be left out: enough if its fields are written. -/
theorem wr_struct_of {m : MarEnv} {mp : MP} (hp : Plain mp) {fs : Fields} (raw : Bytes) (v : fs.interp) (h : WrAll m fs v) :
    Wr m (.struct false fs) mp ((raw, v) : Bytes × fs.interp) := by
  unfold Wr
  rw [Mar.make_struct (menv := m) (raw := false) (fs := fs) (mp := mp) ((raw, v) : Bytes × fs.interp)]
  obtain ⟨b, h⟩ := h
  exact (ft_ok hp).2 (.inr ⟨b, h⟩)

theorem elems_ok {α : Type} {f : α → Except MErr Bytes} : ∀ {l : List α}, (∃ bs, makeElems f l = .ok bs) ↔ ∀ a ∈ l, ∃ b, f a = .ok b
  | [] => by simp [makeElems]
  | a :: l => by
    have e : makeElems f (a :: l) = (f a >>= fun b => makeElems f l >>= fun bs => Except.ok (b :: bs)) := rfl
    rw [e, List.forall_mem_cons, ← elems_ok (l := l)]
    cases h1 : f a with
    | error x =>
      constructor
      · rintro ⟨b, h⟩; cases h
      · rintro ⟨⟨b, h⟩, _⟩; cases h
    | ok x =>
      cases h2 : makeElems f l with
      | error y =>
        constructor
        · rintro ⟨b, h⟩; cases h
        · rintro ⟨_, ⟨b, h⟩⟩; cases h
      | ok y => exact ⟨fun _ => ⟨⟨x, rfl⟩, ⟨y, rfl⟩⟩, fun _ => ⟨x :: y, rfl⟩⟩

theorem wr_slice {m : MarEnv} {mp : MP} (hp : Plain mp) (hr : mp.optional = false) (he : mp.omitEmpty = false) {e : Ty} (v : List e.interp) :
    Wr m (.slice false e) mp v ↔ ∀ a ∈ v, Wr m e {} a := by
  have eq := Mar.make_slice (menv := m) (s := false) (e := e) (mp := mp) v
  unfold Wr
  rw [eq]
  refine (ft_ok hp).trans (Iff.trans ?_ elems_ok)
  constructor
  · rintro (h | ⟨b, h⟩)
    · exact absurd ((Mar.omits_required hr he _ _).symm.trans h) (by simp)
    · refine Classical.byContradiction (fun hn => ?_)
      cases hm : makeElems (makeField m e {}) v with
      | error x =>
        have h : (makeElems (makeField m e {}) v).map _ = Except.ok b := h
        rw [hm] at h; cases h
      | ok bs => exact hn ⟨bs, hm⟩
  · rintro ⟨bs, h⟩
    refine .inr ⟨_, (congrArg (fun o => Except.map _ o) h).trans rfl⟩

theorem wr_raw {m : MarEnv} (v : Ty.rawValue.interp) (mp : MP) : Wr m .rawValue mp v := by
  cases ho : Ty.omits mp .rawValue v with
  | false => exact ⟨_, Mar.make_raw v ho⟩
  | true => exact ⟨[], by rw [Mar.make_leaf (.inr rfl), makePrim, ho]; rfl⟩

theorem wr_bits {m : MarEnv} {mp : MP} (hp : Plain mp) (v : BitStr) : Wr m .bits mp v := by
  have : (∃ b, makePrim m mp .bits v = .ok b) := (ft_ok hp).2 (.inr ⟨encodeBitString v, rfl⟩)
  obtain ⟨b, h⟩ := this
  exact ⟨b, (Mar.make_leaf (t := .bits) (.inl (by simp [Mar.IsLeaf])) v).trans h⟩

theorem wr_bool {m : MarEnv} {mp : MP} (hp : Plain mp) (v : Bool) : Wr m .bool mp v := by
  have : (∃ b, makePrim m mp .bool v = .ok b) := (ft_ok hp).2 (.inr ⟨encodeBool v, rfl⟩)
  obtain ⟨b, h⟩ := this
  exact ⟨b, (Mar.make_leaf (t := .bool) (.inl (by simp [Mar.IsLeaf])) v).trans h⟩

theorem wr_int {m : MarEnv} {mp : MP} (hp : Plain mp) (v : Int) : Wr m .int mp v := by
  have : (∃ b, makePrim m mp .int v = .ok b) := (ft_ok hp).2 (.inr ⟨encodeInt64 v, rfl⟩)
  obtain ⟨b, h⟩ := this
  exact ⟨b, (Mar.make_leaf (t := .int) (.inl (by simp [Mar.IsLeaf])) v).trans h⟩

theorem wr_octets {m : MarEnv} {mp : MP} (hp : Plain mp) (v : Bytes) : Wr m .octets mp v := by
  have : (∃ b, makePrim m mp .octets v = .ok b) := (ft_ok hp).2 (.inr ⟨v, rfl⟩)
  obtain ⟨b, h⟩ := this
  exact ⟨b, (Mar.make_leaf (t := .octets) (.inl (by simp [Mar.IsLeaf])) v).trans h⟩

theorem encode_ok (o : List Nat) : (∃ b, encodeOid o = .ok b) ↔ WritableOid o := by
  match o with
  | [] => exact ⟨fun ⟨b, h⟩ => (by cases h), fun h => h.elim⟩
  | [a] => exact ⟨fun ⟨b, h⟩ => (by cases h), fun h => h.elim⟩
  | a :: b :: arcs =>
    rw [encodeOid]
    show _ ↔ a ≤ 2 ∧ (a < 2 → b < 40)
    by_cases h : 2 < a ∨ (a < 2 ∧ 40 ≤ b)
    · rw [if_pos h]
      refine ⟨fun ⟨b, h⟩ => (by cases h), fun h' => ?_⟩
      omega
    · rw [if_neg h]
      exact ⟨fun _ => by omega, fun _ => ⟨_, rfl⟩⟩

theorem wr_oid {m : MarEnv} (o : List Nat) : Wr m .oid {} o ↔ WritableOid o := by
  unfold Wr
  rw [Mar.make_leaf (t := .oid) (.inl (by simp [Mar.IsLeaf])) o]
  refine (ft_ok (om := Ty.omits {} .oid o) (c := false) (t0 := 6) (t := 6) plain0).trans ?_
  rw [← encode_ok]
  constructor
  · rintro (h | ⟨b, h⟩)
    · exact absurd ((Mar.omits_plain .oid o).symm.trans h) (by simp)
    · cases he : encodeOid o with
      | error x => rw [he] at h; cases h
      | ok b => exact ⟨b, rfl⟩
  · rintro ⟨b, h⟩
    exact .inr ⟨b, by rw [h]⟩

theorem wr_ia5 {m : MarEnv} (n : Bytes) : Wr m .str (parseMP (b!"tag:2,optional,ia5")) n ↔ ∀ c ∈ n, c.toNat < 128 := by
  rw [tag2]
  unfold Wr
  rw [Mar.make_leaf (t := .str) (.inl (by simp [Mar.IsLeaf])) n]
  by_cases hn : n = []
  · subst hn
    exact ⟨fun _ c hc => (by cases hc), fun _ => ⟨[], rfl⟩⟩
  · have ho : Ty.omits { optional := true, tag := some 2, stringType := 22 } .str n = false := by
      show (false && _ || (true && eqv (α := Bytes) n [])) = false
      simp [eqv, hn]
    show (∃ b, fieldTagged { optional := true, tag := some 2, stringType := 22 } (Ty.omits { optional := true, tag := some 2, stringType := 22 } .str n) 19 false
      (stringTag m { optional := true, tag := some 2, stringType := 22 } n) (fun _ => stringBody { optional := true, tag := some 2, stringType := 22 } n) = .ok b) ↔ _
    rw [ho]
    have hb : stringBody { optional := true, tag := some 2, stringType := 22 } n = (if n.all (fun c => decide (c.toNat < 128)) then .ok n else .error .ia5String) := rfl
    rw [hb]
    by_cases hs : n.all (fun c => decide (c.toNat < 128)) = true
    · refine ⟨fun _ c hc => by simpa using List.all_eq_true.1 hs c hc, fun _ => ?_⟩
      rw [if_pos hs]
      exact ⟨_, rfl⟩
    · refine ⟨fun ⟨b, h⟩ => ?_, fun h => absurd (List.all_eq_true.2 (fun c hc => by simpa using h c hc)) hs⟩
      rw [if_neg hs] at h
      cases h

theorem wr_marshal {m : MarEnv} {t : Ty} {v : t.interp} : (∃ b, marshal m t v = .ok b) ↔ Wr m t {} v := by
  unfold marshal Wr
  rw [show parseMP [] = {} from by decide]

variable {env : AsnEnv} {t : ExtFields} {extra : List Ext}

theorem oneExt_ok {on c : Bool} {id : List Nat} {v : Except MErr Bytes} : (∃ l, oneExt on id c v = .ok (some l)) ↔ (on = true → ∃ b, v = .ok b) := by
  unfold oneExt
  cases on with
  | false => simp
  | true => cases v <;> simp

theorem oneExt_no_panic {on c : Bool} {id : List Nat} {v : Except MErr Bytes} {p : Panic} : oneExt on id c v ≠ .error p := by
  unfold oneExt
  cases on with
  | false => simp
  | true => cases v <;> simp

theorem extsThen_ok {x y : Go (Option (List Ext))} : (∃ l, extsThen x y = .ok (some l)) ↔ (∃ l, x = .ok (some l)) ∧ ∃ l, y = .ok (some l) := by
  constructor
  · rintro ⟨l, h⟩
    obtain ⟨a, b, ha, hb, _⟩ := extsThen_inv h
    exact ⟨⟨a, ha⟩, ⟨b, hb⟩⟩
  · rintro ⟨⟨a, rfl⟩, ⟨b, rfl⟩⟩
    exact ⟨_, rfl⟩

theorem usage_ok : ∃ l, usageExt env t extra = .ok (some l) := oneExt_ok.2 (fun _ => wr_marshal.2 (wr_bits plain0 _))

theorem basic_ok : ∃ l, basicExt env t extra = .ok (some l) := oneExt_ok.2 (fun _ => wr_marshal.2 (by
  refine (wr_struct plain0 rfl rfl (fs := .cons (b!"optional") .bool (.cons (b!"optional,default:-1") .int .nil)) [] (t.isCA, pathLenOf t, ())).2 ?_
  refine (wr_cons (t := .bool) (fs := .cons (b!"optional,default:-1") .int .nil) t.isCA (pathLenOf t, ())).2 ⟨?_, ?_⟩
  · exact wr_bool (by rw [optBool]; exact ⟨rfl, rfl, rfl⟩) _
  · exact (wr_cons (t := .int) (fs := .nil) (pathLenOf t) ()).2 ⟨wr_int (by rw [optMinusOne]; exact ⟨rfl, rfl, rfl⟩) _, wr_nil _⟩))

theorem subject_ok : ∃ l, subjectKeyExt env t extra = .ok (some l) := oneExt_ok.2 (fun _ => wr_marshal.2 (wr_octets plain0 _))

theorem authority_ok {key : Bytes} : ∃ l, authorityKeyExt env key extra = .ok (some l) := oneExt_ok.2 (fun _ => wr_marshal.2 (by
  refine (wr_struct plain0 rfl rfl (fs := .cons (b!"optional,tag:0") .octets .nil) [] (key, ())).2 ?_
  exact (wr_cons (t := .octets) (fs := .nil) key ()).2 ⟨wr_octets (by rw [optTag0]; exact ⟨rfl, rfl, rfl⟩) _, wr_nil _⟩))

theorem access_ok : ∃ l, accessExt env t extra = .ok (some l) := oneExt_ok.2 (fun _ => wr_marshal.2 (by
  refine (wr_slice plain0 rfl rfl (e := aiaTy) (accessValues t)).2 (fun a ha => ?_)
  have ho : WritableOid a.2.1 := by
    rcases List.mem_append.1 ha with h | h <;> obtain ⟨n, _, rfl⟩ := List.mem_map.1 h <;> exact ⟨by decide, by decide⟩
  obtain ⟨a0, a1, a2, ⟨⟩⟩ := a
  refine (wr_struct plain0 rfl rfl (fs := .cons [] .oid (.cons [] .rawValue .nil)) a0 (a1, a2, ())).2 ?_
  refine (wr_cons (t := .oid) (fs := .cons [] .rawValue .nil) a1 (a2, ())).2 ⟨(wr_oid a1).2 ho, ?_⟩
  exact (wr_cons (t := .rawValue) (fs := .nil) a2 ()).2 ⟨wr_raw _ _, wr_nil _⟩))

theorem san_ok : ∃ l, sanExt env t extra = .ok (some l) := oneExt_ok.2 (fun _ => wr_marshal.2
  ((wr_slice plain0 rfl rfl (e := .rawValue) _).2 (fun _ _ => wr_raw _ _)))

theorem policy_ok : (∃ l, policyExt env t extra = .ok (some l)) ↔ ∀ o ∈ (t.unlessIn extra).policies, WritableOid o := by
  have one : ∀ o : List Nat, Wr (stdMar env) policyTy {} ((([] : Bytes), o, ()) : Bytes × List Nat × Unit) ↔ WritableOid o := fun o => by
    refine (wr_struct plain0 rfl rfl (fs := .cons [] .oid .nil) [] (o, ())).trans ?_
    refine (wr_cons (t := .oid) (fs := .nil) o ()).trans ?_
    exact ⟨fun h => (wr_oid o).1 h.1, fun h => ⟨(wr_oid o).2 h, wr_nil _⟩⟩
  have hw : (∃ b, marshal (stdMar env) (.slice false policyTy) (t.policies.map (fun p => (([] : Bytes), p, ()))) = .ok b) ↔ ∀ o ∈ t.policies, WritableOid o := by
    refine wr_marshal.trans ((wr_slice plain0 rfl rfl (e := policyTy) _).trans ?_)
    constructor
    · intro h o ho; exact (one o).1 (h _ (List.mem_map_of_mem ho))
    · intro h a ha
      obtain ⟨o, ho, rfl⟩ := List.mem_map.1 ha
      exact (one o).2 (h o ho)
  refine oneExt_ok.trans ?_
  rw [show (t.unlessIn extra).policies = if [2,5,29,32] ∈ extra.map Prod.fst then [] else t.policies from rfl]
  cases hi : oidInExtensions [2,5,29,32] extra with
  | true => rw [if_pos (in_iff.1 hi)]; simp
  | false =>
    rw [if_neg (fun hm => by rw [in_iff.2 hm] at hi; cases hi), hw]
    by_cases hp : t.policies = []
    · simp [hp]
    · simp [hp]

theorem constraints_ok : (∃ l, constraintsExt env t extra = .ok (some l)) ↔ ∀ n ∈ (t.unlessIn extra).permitted ++ (t.unlessIn extra).excluded, ∀ c ∈ n, c.toNat < 128 := by
  have one : ∀ n : Bytes, Wr (stdMar env) subtreeTy {} ((([] : Bytes), n, ()) : Bytes × Bytes × Unit) ↔ ∀ c ∈ n, c.toNat < 128 := fun n => by
    refine (wr_struct plain0 rfl rfl (fs := .cons (b!"tag:2,optional,ia5") .str .nil) [] (n, ())).trans ?_
    refine (wr_cons (t := .str) (fs := .nil) n ()).trans ?_
    exact ⟨fun h => (wr_ia5 n).1 h.1, fun h => ⟨(wr_ia5 n).2 h, wr_nil _⟩⟩
  have many : ∀ {mp : MP}, Plain mp → mp.optional = false → mp.omitEmpty = false → ∀ l : List Bytes,
      Wr (stdMar env) (.slice false subtreeTy) mp (l.map (fun n => ((([] : Bytes), n, ()) : Bytes × Bytes × Unit))) ↔ ∀ n ∈ l, ∀ c ∈ n, c.toNat < 128 := by
    intro mp hp h1 h2 l
    refine (wr_slice hp h1 h2 (e := subtreeTy) _).trans ?_
    constructor
    · intro h n hn; exact (one n).1 (h _ (List.mem_map_of_mem hn))
    · intro h a ha
      obtain ⟨n, hn, rfl⟩ := List.mem_map.1 ha
      exact (one n).2 (h n hn)
  have hw : (∃ b, marshal (stdMar env) nameConstraintsOutTy
      (([] : Bytes), t.permitted.map (fun n => (([] : Bytes), n, ())), t.excluded.map (fun n => (([] : Bytes), n, ())), ()) = .ok b) ↔
      ∀ n ∈ t.permitted ++ t.excluded, ∀ c ∈ n, c.toNat < 128 := by
    refine wr_marshal.trans ((wr_struct plain0 rfl rfl (fs := .cons (b!"tag:0") (.slice false subtreeTy) (.cons (b!"tag:1") (.slice false subtreeTy) .nil)) [] _).trans ?_)
    refine (wr_cons (t := .slice false subtreeTy) (fs := .cons (b!"tag:1") (.slice false subtreeTy) .nil) _ _).trans ?_
    have h1 : Wr (stdMar env) (.slice false subtreeTy) (parseMP (b!"tag:0")) (t.permitted.map (fun n => ((([] : Bytes), n, ()) : Bytes × Bytes × Unit))) ↔
        ∀ n ∈ t.permitted, ∀ c ∈ n, c.toNat < 128 := by rw [tag0]; exact many ⟨rfl, rfl, rfl⟩ rfl rfl _
    have h2 : Wr (stdMar env) (.slice false subtreeTy) (parseMP (b!"tag:1")) (t.excluded.map (fun n => ((([] : Bytes), n, ()) : Bytes × Bytes × Unit))) ↔
        ∀ n ∈ t.excluded, ∀ c ∈ n, c.toNat < 128 := by rw [tag1]; exact many ⟨rfl, rfl, rfl⟩ rfl rfl _
    have h3 := wr_cons (m := stdMar env) (tag := b!"tag:1") (t := .slice false subtreeTy) (fs := .nil) (t.excluded.map (fun n => ((([] : Bytes), n, ()) : Bytes × Bytes × Unit))) ()
    refine (and_congr h1 h3).trans ?_
    constructor
    · rintro ⟨h, h', _⟩ n hn
      rcases List.mem_append.1 hn with hn | hn
      · exact h n hn
      · exact h2.1 h' n hn
    · intro h
      exact ⟨fun n hn => h n (List.mem_append_left _ hn), h2.2 (fun n hn => h n (List.mem_append_right _ hn)), wr_nil _⟩
  refine oneExt_ok.trans ?_
  rw [show (t.unlessIn extra).permitted = if [2,5,29,30] ∈ extra.map Prod.fst then [] else t.permitted from rfl,
    show (t.unlessIn extra).excluded = if [2,5,29,30] ∈ extra.map Prod.fst then [] else t.excluded from rfl]
  cases hi : oidInExtensions [2,5,29,30] extra with
  | true => rw [if_pos (in_iff.1 hi), if_pos (in_iff.1 hi)]; simp
  | false =>
    have hn : ¬ [2,5,29,30] ∈ extra.map Prod.fst := fun hm => by rw [in_iff.2 hm] at hi; cases hi
    rw [if_neg hn, if_neg hn, hw]
    by_cases hp : t.permitted = [] <;> by_cases he : t.excluded = [] <;> simp [hp, he]

theorem crl_ok : ∃ l, crlExt env t extra = .ok (some l) := oneExt_ok.2 (fun _ => wr_marshal.2 (by
  refine (wr_slice plain0 rfl rfl (e := dpTy) _).2 (fun a ha => ?_)
  obtain ⟨n, _, rfl⟩ := List.mem_map.1 ha
  have p0 : Plain (parseMP (b!"optional,tag:0")) := by rw [optTag0]; exact ⟨rfl, rfl, rfl⟩
  have p1 : Plain (parseMP (b!"optional,tag:1")) := by refine ⟨?_, ?_, ?_⟩ <;> decide
  refine (wr_struct plain0 rfl rfl (fs := .cons (b!"optional,tag:0") dpNameTy (.cons (b!"optional,tag:1") .bits (.cons (b!"optional,tag:2") .rawValue .nil))) [] (crlPointOf n).2).2 ?_
  refine (wr_cons (t := dpNameTy) (fs := .cons (b!"optional,tag:1") .bits (.cons (b!"optional,tag:2") .rawValue .nil)) (crlPointOf n).2.1 (crlPointOf n).2.2).2 ⟨?_, ?_⟩
  · refine wr_struct_of p0 (fs := .cons (b!"optional,tag:0") .rawValue (.cons (b!"optional,tag:1") rdnsTy .nil)) [] (crlPointOf n).2.1.2 ?_
    refine (wr_cons (t := .rawValue) (fs := .cons (b!"optional,tag:1") rdnsTy .nil) (crlPointOf n).2.1.2.1 (crlPointOf n).2.1.2.2).2 ⟨wr_raw _ _, ?_⟩
    refine (wr_cons (t := rdnsTy) (fs := .nil) (crlPointOf n).2.1.2.2.1 ()).2 ⟨?_, wr_nil _⟩
    unfold Wr
    rw [show (crlPointOf n).2.1.2.2.1 = ([] : List (List (Bytes × List Nat × Option AnyVal × Unit))) from rfl]
    exact ⟨[], by rfl⟩
  · refine (wr_cons (t := .bits) (fs := .cons (b!"optional,tag:2") .rawValue .nil) (⟨[], 0⟩ : BitStr) (({} : RawVal), ())).2 ⟨wr_bits p1 _, ?_⟩
    exact (wr_cons (t := .rawValue) (fs := .nil) ({} : RawVal) ()).2 ⟨wr_raw _ _, wr_nil _⟩))

theorem known_lt {n : Nat} : (∃ o, oidFromExtKeyUsage n = some o) ↔ n < keyPurposes.length := by
  constructor
  · rintro ⟨o, h⟩
    have := (known_oid h).2
    rw [List.idxOf?_eq_some_iff] at this
    exact (List.findIdx?_eq_some_iff_findIdx_eq.1 (List.idxOf?_eq_some_iff.2 this)).1
  · intro h
    have key : ∀ k : Fin 12, (oidFromExtKeyUsage k.val).isSome = true := by decide +kernel
    exact Option.isSome_iff_exists.1 (key ⟨n, h⟩)

theorem purposes_known : ∀ {us : List Nat}, (∃ os, purposeOids us = some os) ↔ ∀ u ∈ us, u < keyPurposes.length
  | [] => by simp [purposeOids]
  | u :: us => by
    rw [List.forall_mem_cons, ← purposes_known (us := us), ← known_lt, purposeOids]
    cases oidFromExtKeyUsage u with
    | none => simp
    | some o => cases purposeOids us <;> simp

theorem purpose_ok : (∃ l, purposeExt env t extra = .ok (some l)) ↔
    (∀ u ∈ (t.unlessIn extra).extKeyUsage, u < keyPurposes.length) ∧ ∀ o ∈ (t.unlessIn extra).unknownExtKeyUsage, WritableOid o := by
  unfold purposeExt
  rw [show (t.unlessIn extra).extKeyUsage = if [2,5,29,37] ∈ extra.map Prod.fst then [] else t.extKeyUsage from rfl,
    show (t.unlessIn extra).unknownExtKeyUsage = if [2,5,29,37] ∈ extra.map Prod.fst then [] else t.unknownExtKeyUsage from rfl]
  cases hi : oidInExtensions [2,5,29,37] extra with
  | true => rw [if_pos (in_iff.1 hi), if_pos (in_iff.1 hi), if_neg (by simp)]; simp
  | false =>
    have hn : ¬ [2,5,29,37] ∈ extra.map Prod.fst := fun hm => by rw [in_iff.2 hm] at hi; cases hi
    rw [if_neg hn, if_neg hn]
    by_cases hw : ((decide (t.extKeyUsage ≠ []) || decide (t.unknownExtKeyUsage ≠ [])) && !false) = true
    · rw [if_pos hw, ← purposes_known]
      cases hp : purposeOids t.extKeyUsage with
      | none => simp
      | some os =>
        simp only [Option.some.injEq, exists_eq', true_and]
        refine oneExt_ok.trans ?_
        have hv := (purpose_oids hp).1
        have : (∃ b, marshal (stdMar env) (.slice false .oid) (os ++ t.unknownExtKeyUsage : List (List Nat)) = .ok b) ↔ ∀ o ∈ t.unknownExtKeyUsage, WritableOid o := by
          refine wr_marshal.trans ((wr_slice plain0 rfl rfl (e := .oid) (os ++ t.unknownExtKeyUsage)).trans ?_)
          constructor
          · intro h o ho; exact (wr_oid o).1 (h o (List.mem_append_right _ ho))
          · intro h o ho
            rcases List.mem_append.1 ho with ho | ho
            · refine (wr_oid o).2 ?_
              have := (hv o ho).1
              match o, this with
              | a :: b :: arcs, h => exact ⟨h.1, h.2.1⟩
            · exact (wr_oid o).2 (h o ho)
        rw [this]; simp
    · rw [if_neg hw]
      simp at hw
      simp [hw.1, hw.2]

theorem purpose_panics {p : Panic} : purposeExt env t extra = .error p ↔ p = .explicit ∧ ∃ u ∈ (t.unlessIn extra).extKeyUsage, keyPurposes.length ≤ u := by
  unfold purposeExt
  rw [show (t.unlessIn extra).extKeyUsage = if [2,5,29,37] ∈ extra.map Prod.fst then [] else t.extKeyUsage from rfl]
  cases hi : oidInExtensions [2,5,29,37] extra with
  | true => rw [if_pos (in_iff.1 hi), if_neg (by simp)]; simp
  | false =>
    have hn : ¬ [2,5,29,37] ∈ extra.map Prod.fst := fun hm => by rw [in_iff.2 hm] at hi; cases hi
    rw [if_neg hn]
    by_cases hw : ((decide (t.extKeyUsage ≠ []) || decide (t.unknownExtKeyUsage ≠ [])) && !false) = true
    · rw [if_pos hw]
      cases hp : purposeOids t.extKeyUsage with
      | none =>
        have : ∃ u ∈ t.extKeyUsage, keyPurposes.length ≤ u := by
          refine Classical.byContradiction (fun hc => ?_)
          obtain ⟨os, h⟩ := purposes_known.2 (fun u hu => Nat.lt_of_not_le (fun h => hc ⟨u, hu, h⟩))
          rw [hp] at h; cases h
        simp only [Except.error.injEq]
        exact ⟨fun h => ⟨h.symm, this⟩, fun h => h.1.symm⟩
      | some os =>
        refine ⟨fun h => absurd h oneExt_no_panic, ?_⟩
        rintro ⟨_, u, hu, h⟩
        have := purposes_known.1 ⟨os, hp⟩ u hu
        omega
    · rw [if_neg hw]
      simp at hw
      simp [hw.1]

theorem extsThen_panics {x y : Go (Option (List Ext))} {p : Panic} : extsThen x y = .error p ↔ x = .error p ∨ (∃ l, x = .ok (some l)) ∧ y = .error p := by
  unfold extsThen
  rcases x with q | _ | a
  · simp
  · simp
  · rcases y with q | _ | b <;> simp

theorem ids_one {on c : Bool} {id : List Nat} {v : Except MErr Bytes} {l : List Ext} (h : oneExt on id c v = .ok (some l)) :
    l.map (fun e => (e.1, e.2.1)) = if on then [(id, c)] else [] := by
  rcases oneExt_inv h with ⟨h1, rfl⟩ | ⟨h1, b, _, rfl⟩
  · rw [h1]; rfl
  · rw [h1]; rfl

end Cre
end Apk
