import Verif.Spec.TagString
import Verif.Proofs.Top
import Verif.Proofs.V1ExactTop
/-! # Tag strings -/
namespace Apk

theorem goParseInt64_iff (v : Bytes) (i : Int) : goParseInt64 v = some i ↔ Numeral64 v i := by
  cases v with
  | nil =>
    constructor
    · intro h; cases h
    · rintro ⟨sign, ds, h, h1, _⟩
      exact absurd (List.append_eq_nil_iff.1 h.symm).2 h1
  | cons c ds =>
    unfold goParseInt64
    simp only
    constructor
    · intro h
      split at h
      · rename_i hc
        subst hc
        cases hv : digitsVal ds with
        | none => rw [hv] at h; cases h
        | some n =>
          rw [hv, Option.bind_some] at h
          obtain ⟨h1, h2, h3⟩ := (digitsVal_iff _ _).1 hv
          split at h
          · rename_i hn
            simp only [Option.some.injEq] at h
            subst h
            exact ⟨[45], ds, rfl, h1, h2, .inr ⟨rfl, by rw [h3]⟩, by omega, by omega⟩
          · cases h
      · cases hv : digitsVal (if c = 43 then ds else c :: ds) with
        | none => rw [hv] at h; cases h
        | some n =>
          rw [hv, Option.bind_some] at h
          obtain ⟨h1, h2, h3⟩ := (digitsVal_iff _ _).1 hv
          split at h
          · rename_i hn
            simp only [Option.some.injEq] at h
            subst h
            by_cases hc : c = 43
            · rw [if_pos hc] at h1 h2 h3
              exact ⟨[43], ds, by rw [hc]; rfl, h1, h2, .inl ⟨.inr rfl, by rw [h3]⟩, by omega, by omega⟩
            · rw [if_neg hc] at h1 h2 h3
              exact ⟨[], c :: ds, rfl, h1, h2, .inl ⟨.inl rfl, by rw [h3]⟩, by omega, by omega⟩
          · cases h
    · rintro ⟨sign, es, h, h1, h2, h3, h4, h5⟩
      have hv := (digitsVal_iff es _).2 ⟨h1, h2, rfl⟩
      rcases h3 with ⟨hs | hs, hi⟩ | ⟨hs, hi⟩
      · subst hs
        have h : c :: ds = es := h
        subst h
        have hd := digit_no_sign h2
        rw [if_neg hd.1, if_neg hd.2, hv, Option.bind_some, if_pos (by omega), hi]
      · subst hs
        simp only [List.singleton_append, List.cons.injEq] at h
        obtain ⟨hc, hds⟩ := h
        rw [hds, hc, if_neg (by decide), if_pos rfl, hv, Option.bind_some, if_pos (by omega), hi]
      · subst hs
        simp only [List.singleton_append, List.cons.injEq] at h
        obtain ⟨hc, hds⟩ := h
        rw [hds, hc, if_pos rfl, hv, Option.bind_some, if_pos (by omega), hi]

theorem numeral64_unique {v : Bytes} {i j : Int} (h : Numeral64 v i) (h' : Numeral64 v j) : i = j :=
  Option.some.inj (((goParseInt64_iff v i).2 h).symm.trans ((goParseInt64_iff v j).2 h'))

/-- What the words before the last one say, and the last one. -/
theorem lastOf_snoc {α : Type} {says : Bytes → α → Prop} {ws : List Bytes} {w : Bytes} {o : Option α} (h : LastOf says ws o) :
    (∀ v, says w v → LastOf says (ws ++ [w]) (some v)) ∧ ((∀ v, ¬ says w v) → LastOf says (ws ++ [w]) o) := by
  constructor
  · intro v hv
    exact .inr ⟨ws, w, [], v, rfl, hv, by simp, rfl⟩
  · intro hn
    rcases h with ⟨rfl, h⟩ | ⟨pre, u, post, v, rfl, h1, h2, rfl⟩
    · refine .inl ⟨rfl, ?_⟩
      intro u hu
      rcases List.mem_append.1 hu with hu | hu
      · exact h u hu
      · rw [List.mem_singleton.1 hu]; exact hn
    · refine .inr ⟨pre, u, post ++ [w], v, by simp, h1, ?_, rfl⟩
      intro w' hw'
      rcases List.mem_append.1 hw' with hu | hu
      · exact h2 w' hu
      · rw [List.mem_singleton.1 hu]; exact hn

theorem lastOf_unique {α : Type} {says : Bytes → α → Prop} (hf : ∀ w a b, says w a → says w b → a = b) {ws : List Bytes} {o o' : Option α}
    (h : LastOf says ws o) (h' : LastOf says ws o') : o = o' := by
  have key : ∀ (ws : List Bytes) pre w post v pre' w' post' v', ws = pre ++ w :: post → ws = pre' ++ w' :: post' → says w v → says w' v' →
      (∀ u ∈ post, ∀ x, ¬ says u x) → (∀ u ∈ post', ∀ x, ¬ says u x) → v = v' := by
    intro ws pre w post v pre' w' post' v' h1 h2 h3 h4 h5 h6
    induction ws generalizing pre pre' with
    | nil => simp at h1
    | cons x xs ih =>
      cases pre with
      | nil =>
        obtain ⟨rfl, rfl⟩ := List.cons.inj h1
        cases pre' with
        | nil => obtain ⟨rfl, rfl⟩ := List.cons.inj h2; exact hf _ _ _ h3 h4
        | cons y ys =>
          obtain ⟨rfl, e⟩ := List.cons.inj h2
          exact absurd h4 (h5 w' (by rw [e]; simp) v')
      | cons z zs =>
        obtain ⟨rfl, e⟩ := List.cons.inj h1
        cases pre' with
        | nil =>
          obtain ⟨rfl, rfl⟩ := List.cons.inj h2
          exact absurd h3 (h6 w (by rw [e]; simp) v)
        | cons y ys => exact ih zs ys e (List.cons.inj h2).2
  rcases h with ⟨rfl, h⟩ | ⟨pre, w, post, v, e, h1, h2, rfl⟩ <;> rcases h' with ⟨rfl, h'⟩ | ⟨pre', w', post', v', e', h1', h2', rfl⟩
  · rfl
  · exact absurd h1' (h w' (by rw [e']; simp) v')
  · exact absurd h1 (h' w (by rw [e]; simp) v)
  · rw [key ws pre w post v pre' w' post' v' e e' h1 h1' h2 h2']

/-- `TagString` for a list of words, with the last tag number and string type made explicit. -/
structure WordsSay (words : List Bytes) (fp : FP) (n : Option Int) (st : Option Nat) : Prop where
  optional : fp.optional = true ↔ b!"optional" ∈ words
  explicit : fp.explicit = true ↔ b!"explicit" ∈ words
  application : fp.application = true ↔ b!"application" ∈ words
  priv : fp.priv = true ↔ b!"private" ∈ words
  set : fp.set = true ↔ b!"set" ∈ words
  dflt : LastOf (fun w i => ∃ num, w = b!"default:" ++ num ∧ Numeral64 num i) words fp.dflt
  str : LastOf (fun w i => (w, i) ∈ stringWords) words st
  strEq : fp.stringType = st.getD 0
  num : LastOf (fun w i => ∃ num, w = b!"tag:" ++ num ∧ Numeral64 num i) words n
  tag : fp.tag = n.or (if b!"explicit" ∈ words ∨ b!"application" ∈ words ∨ b!"private" ∈ words then some 0 else none)

theorem hasPrefix_iff' {w p : Bytes} : hasPrefix w p = true ↔ ∃ x, w = p ++ x := by
  unfold hasPrefix
  rw [decide_eq_true_eq]
  exact ⟨fun ⟨x, h⟩ => ⟨x, h.symm⟩, fun ⟨x, h⟩ => ⟨x, h.symm⟩⟩

/-- The words that mean something. -/
inductive Word : Bytes → Prop
  | optional : Word (b!"optional")
  | explicit : Word (b!"explicit")
  | application : Word (b!"application")
  | priv : Word (b!"private")
  | set : Word (b!"set")
  | str {w : Bytes} {n : Nat} : (w, n) ∈ stringWords → Word w
  | dflt (x : Bytes) : Word (b!"default:" ++ x)
  | tag (x : Bytes) : Word (b!"tag:" ++ x)

theorem fpStep_optional (fp : FP) : fpStep fp (b!"optional") = { fp with optional := true } := rfl
theorem fpStep_explicit (fp : FP) : fpStep fp (b!"explicit") = { fp with explicit := true, tag := some (fp.tag.getD 0) } := rfl
theorem fpStep_application (fp : FP) : fpStep fp (b!"application") = { fp with application := true, tag := some (fp.tag.getD 0) } := rfl
theorem fpStep_private (fp : FP) : fpStep fp (b!"private") = { fp with priv := true, tag := some (fp.tag.getD 0) } := rfl
theorem fpStep_set (fp : FP) : fpStep fp (b!"set") = { fp with set := true } := rfl
theorem fpStep_str (fp : FP) {w : Bytes} {n : Nat} (h : (w, n) ∈ stringWords) : fpStep fp w = { fp with stringType := n } := by
  simp only [stringWords, List.mem_cons, Prod.mk.injEq, List.not_mem_nil, or_false] at h
  rcases h with ⟨rfl, rfl⟩ | ⟨rfl, rfl⟩ | ⟨rfl, rfl⟩ | ⟨rfl, rfl⟩ <;> rfl
theorem fpStep_dflt (fp : FP) (x : Bytes) : fpStep fp (b!"default:" ++ x) = match goParseInt64 x with
    | none => fp
    | some i => { fp with dflt := some i } := rfl
theorem fpStep_tag (fp : FP) (x : Bytes) : fpStep fp (b!"tag:" ++ x) = match goParseInt64 x with
    | none => fp
    | some i => { fp with tag := some i } := rfl
theorem fpStep_other (fp : FP) {w : Bytes} (h : ¬ Word w) : fpStep fp w = fp := by
  unfold fpStep
  rw [if_neg (by rintro rfl; exact h .optional), if_neg (by rintro rfl; exact h .explicit)]
  by_cases h1 : w = b!"generalized"
  · rw [if_pos h1]
  rw [if_neg h1]
  by_cases h2 : w = b!"utc"
  · rw [if_pos h2]
  rw [if_neg h2, if_neg (fun e => h (.str (n := 22) (by rw [e]; simp [stringWords]))), if_neg (fun e => h (.str (n := 19) (by rw [e]; simp [stringWords]))),
    if_neg (fun e => h (.str (n := 18) (by rw [e]; simp [stringWords]))), if_neg (fun e => h (.str (n := 12) (by rw [e]; simp [stringWords]))),
    if_neg (fun e => by obtain ⟨x, rfl⟩ := hasPrefix_iff'.1 e; exact h (.dflt x)),
    if_neg (fun e => by obtain ⟨x, rfl⟩ := hasPrefix_iff'.1 e; exact h (.tag x)),
    if_neg (by rintro rfl; exact h .set), if_neg (by rintro rfl; exact h .application), if_neg (by rintro rfl; exact h .priv)]

/-- One more word. -/
theorem WordsSay.snoc {ws : List Bytes} {fp fp' : FP} {n n' : Option Int} {st st' : Option Nat} {w : Bytes} (h : WordsSay ws fp n st)
    (h1 : fp'.optional = (fp.optional || decide (w = b!"optional"))) (h2 : fp'.explicit = (fp.explicit || decide (w = b!"explicit")))
    (h3 : fp'.application = (fp.application || decide (w = b!"application"))) (h4 : fp'.priv = (fp.priv || decide (w = b!"private")))
    (h5 : fp'.set = (fp.set || decide (w = b!"set")))
    (h6 : (∃ num i, w = b!"default:" ++ num ∧ Numeral64 num i ∧ fp'.dflt = some i) ∨ ((∀ num i, w = b!"default:" ++ num → ¬ Numeral64 num i) ∧ fp'.dflt = fp.dflt))
    (h7 : (∃ i, (w, i) ∈ stringWords ∧ fp'.stringType = i ∧ st' = some i) ∨ ((∀ i, (w, i) ∉ stringWords) ∧ fp'.stringType = fp.stringType ∧ st' = st))
    (h8 : (∃ num i, w = b!"tag:" ++ num ∧ Numeral64 num i ∧ n' = some i) ∨ ((∀ num i, w = b!"tag:" ++ num → ¬ Numeral64 num i) ∧ n' = n))
    (h9 : fp'.tag = n'.or (if fp'.explicit ∨ fp'.application ∨ fp'.priv then some 0 else none)) : WordsSay (ws ++ [w]) fp' n' st' := by
  have mem : ∀ (k : Bytes) (b b' : Bool), (b = true ↔ k ∈ ws) → b' = (b || decide (w = k)) → (b' = true ↔ k ∈ ws ++ [w]) := by
    intro k b b' hb hb'
    rw [hb', Bool.or_eq_true, hb, decide_eq_true_eq, List.mem_append, List.mem_singleton]
    exact or_congr Iff.rfl ⟨Eq.symm, Eq.symm⟩
  have e2 := mem _ _ _ h.explicit h2
  have e3 := mem _ _ _ h.application h3
  have e4 := mem _ _ _ h.priv h4
  refine ⟨mem _ _ _ h.optional h1, e2, e3, e4, mem _ _ _ h.set h5, ?_, ?_, ?_, ?_, ?_⟩
  · rcases h6 with ⟨num, i, hw, hi, e⟩ | ⟨hn, e⟩
    · rw [e]; exact (lastOf_snoc h.dflt).1 i ⟨num, hw, hi⟩
    · rw [e]; exact (lastOf_snoc h.dflt).2 (fun i ⟨num, hw, hi⟩ => hn num i hw hi)
  · rcases h7 with ⟨i, hi, _, e⟩ | ⟨hn, _, e⟩
    · rw [e]; exact (lastOf_snoc h.str).1 i hi
    · rw [e]; exact (lastOf_snoc h.str).2 hn
  · rcases h7 with ⟨i, hi, e', e⟩ | ⟨hn, e', e⟩
    · rw [e, e']; rfl
    · rw [e, e', h.strEq]
  · rcases h8 with ⟨num, i, hw, hi, e⟩ | ⟨hn, e⟩
    · rw [e]; exact (lastOf_snoc h.num).1 i ⟨num, hw, hi⟩
    · rw [e]; exact (lastOf_snoc h.num).2 (fun i ⟨num, hw, hi⟩ => hn num i hw hi)
  · rw [h9]
    cases n' with
    | some i => rfl
    | none =>
      simp only [e2, e3, e4]

theorem WordsSay.tag_getD {ws : List Bytes} {fp : FP} {n : Option Int} {st : Option Nat} (h : WordsSay ws fp n st) :
    some (fp.tag.getD 0) = n.or (some 0) := by
  rw [h.tag]
  cases n with
  | some i => rfl
  | none => show some ((if _ then some (0 : Int) else none).getD 0) = _; split <;> rfl

theorem WordsSay.tag_eq {ws : List Bytes} {fp : FP} {n : Option Int} {st : Option Nat} (h : WordsSay ws fp n st) :
    fp.tag = n.or (if fp.explicit ∨ fp.application ∨ fp.priv then some 0 else none) := by
  rw [h.tag]
  cases n with
  | some i => rfl
  | none => simp only [h.explicit, h.application, h.priv]

theorem word_step {ws : List Bytes} {fp : FP} {n : Option Int} {st : Option Nat} (w : Bytes) (h : WordsSay ws fp n st) :
    ∃ n' st', WordsSay (ws ++ [w]) (fpStep fp w) n' st' := by
  by_cases hw : Word w
  · cases hw with
    | optional => exact ⟨n, st, h.snoc (by simp [fpStep_optional]) (by simp [fpStep_optional]) (by simp [fpStep_optional]) (by simp [fpStep_optional])
        (by simp [fpStep_optional]) (.inr ⟨by simp, rfl⟩) (.inr ⟨by simp [stringWords], rfl, rfl⟩) (.inr ⟨by simp, rfl⟩) (by rw [fpStep_optional]; exact h.tag_eq)⟩
    | explicit => exact ⟨n, st, h.snoc (by simp [fpStep_explicit]) (by simp [fpStep_explicit]) (by simp [fpStep_explicit]) (by simp [fpStep_explicit])
        (by simp [fpStep_explicit]) (.inr ⟨by simp, rfl⟩) (.inr ⟨by simp [stringWords], rfl, rfl⟩) (.inr ⟨by simp, rfl⟩) (by
          rw [fpStep_explicit, h.tag_getD]; simp)⟩
    | application => exact ⟨n, st, h.snoc (by simp [fpStep_application]) (by simp [fpStep_application]) (by simp [fpStep_application]) (by simp [fpStep_application])
        (by simp [fpStep_application]) (.inr ⟨by simp, rfl⟩) (.inr ⟨by simp [stringWords], rfl, rfl⟩) (.inr ⟨by simp, rfl⟩) (by
          rw [fpStep_application, h.tag_getD]; simp)⟩
    | priv => exact ⟨n, st, h.snoc (by simp [fpStep_private]) (by simp [fpStep_private]) (by simp [fpStep_private]) (by simp [fpStep_private])
        (by simp [fpStep_private]) (.inr ⟨by simp, rfl⟩) (.inr ⟨by simp [stringWords], rfl, rfl⟩) (.inr ⟨by simp, rfl⟩) (by
          rw [fpStep_private, h.tag_getD]; simp)⟩
    | set => exact ⟨n, st, h.snoc (by simp [fpStep_set]) (by simp [fpStep_set]) (by simp [fpStep_set]) (by simp [fpStep_set])
        (by simp [fpStep_set]) (.inr ⟨by simp, rfl⟩) (.inr ⟨by simp [stringWords], rfl, rfl⟩) (.inr ⟨by simp, rfl⟩) (by rw [fpStep_set]; exact h.tag_eq)⟩
    | @str _ k hk =>
      have ne : ∀ x : Bytes, (x, k) ∉ stringWords → w ≠ x := by rintro x hx rfl; exact hx hk
      have hk' := hk
      rw [fpStep_str fp hk]
      simp only [stringWords, List.mem_cons, Prod.mk.injEq, List.not_mem_nil, or_false] at hk'
      refine ⟨n, some k, h.snoc ?_ ?_ ?_ ?_ ?_ (.inr ⟨?_, rfl⟩) (.inl ⟨k, hk, rfl, rfl⟩) (.inr ⟨?_, rfl⟩) h.tag_eq⟩
      all_goals rcases hk' with ⟨rfl, _⟩ | ⟨rfl, _⟩ | ⟨rfl, _⟩ | ⟨rfl, _⟩ <;> simp
    | dflt x =>
      rw [fpStep_dflt]
      cases hx : goParseInt64 x with
      | none =>
        refine ⟨n, st, h.snoc (by simp) (by simp) (by simp) (by simp) (by simp) (.inr ⟨?_, rfl⟩) (.inr ⟨by simp [stringWords], rfl, rfl⟩) (.inr ⟨by simp, rfl⟩) h.tag_eq⟩
        intro num i e hi
        rw [← List.append_cancel_left e] at hi
        rw [(goParseInt64_iff x i).2 hi] at hx
        cases hx
      | some i =>
        exact ⟨n, st, h.snoc (by simp) (by simp) (by simp) (by simp) (by simp) (.inl ⟨x, i, rfl, (goParseInt64_iff x i).1 hx, rfl⟩)
          (.inr ⟨by simp [stringWords], rfl, rfl⟩) (.inr ⟨by simp, rfl⟩) h.tag_eq⟩
    | tag x =>
      rw [fpStep_tag]
      cases hx : goParseInt64 x with
      | none =>
        refine ⟨n, st, h.snoc (by simp) (by simp) (by simp) (by simp) (by simp) (.inr ⟨by simp, rfl⟩) (.inr ⟨by simp [stringWords], rfl, rfl⟩) (.inr ⟨?_, rfl⟩) h.tag_eq⟩
        intro num i e hi
        rw [← List.append_cancel_left e] at hi
        rw [(goParseInt64_iff x i).2 hi] at hx
        cases hx
      | some i =>
        exact ⟨some i, st, h.snoc (by simp) (by simp) (by simp) (by simp) (by simp) (.inr ⟨by simp, rfl⟩)
          (.inr ⟨by simp [stringWords], rfl, rfl⟩) (.inl ⟨x, i, rfl, (goParseInt64_iff x i).1 hx, rfl⟩) rfl⟩
  · rw [fpStep_other fp hw]
    have ne : ∀ k, Word k → w ≠ k := by rintro k hk rfl; exact hw hk
    refine ⟨n, st, h.snoc (by simp [ne _ .optional]) (by simp [ne _ .explicit]) (by simp [ne _ .application]) (by simp [ne _ .priv]) (by simp [ne _ .set])
      (.inr ⟨fun num i e => absurd e (ne _ (.dflt num)), rfl⟩) (.inr ⟨fun i hi => hw (.str hi), rfl, rfl⟩)
      (.inr ⟨fun num i e => absurd e (ne _ (.tag num)), rfl⟩) h.tag_eq⟩

theorem words_say (ws : List Bytes) : ∃ n st, WordsSay ws (ws.foldl fpStep {}) n st := by
  have gen : ∀ (post pre : List Bytes) (fp : FP) n st, WordsSay pre fp n st → ∃ n' st', WordsSay (pre ++ post) (post.foldl fpStep fp) n' st' := by
    intro post
    induction post with
    | nil => intro pre fp n st h; exact ⟨n, st, by simpa using h⟩
    | cons w post ih =>
      intro pre fp n st h
      obtain ⟨n', st', h'⟩ := word_step w h
      have := ih (pre ++ [w]) _ n' st' h'
      simpa using this
  have h0 : WordsSay [] {} none none := ⟨by simp, by simp, by simp, by simp, by simp, .inl ⟨rfl, by simp⟩, .inl ⟨rfl, by simp⟩, rfl, .inl ⟨rfl, by simp⟩, by simp⟩
  simpa using gen ws [] {} none none h0

/-- The meaning of a tag string is what `parseFieldParameters` finds. -/
theorem tagString_iff {s : Bytes} {fp : FP} : TagString s fp ↔ fp = parseFP s := by
  have hb : ∀ {b b' : Bool} {p : Prop}, (b = true ↔ p) → (b' = true ↔ p) → b = b' := by
    intro b b' p h h'
    exact Bool.eq_iff_iff.2 (h.trans h'.symm)
  have ex : ∃ n st, WordsSay (splitByte 44 s) (parseFP s) n st := words_say (splitByte 44 s)
  obtain ⟨n, st, h⟩ := ex
  constructor
  · rintro ⟨words, hp, h1, h2, h3, h4, h5, h6, ⟨st', h7, h7'⟩, n', h8, h8'⟩
    rw [pieces_iff] at hp
    subst hp
    have e6 := lastOf_unique (says := fun (w : Bytes) (i : Int) => ∃ num, w = b!"default:" ++ num ∧ Numeral64 num i)
      (by rintro w a b ⟨x, e, hx⟩ ⟨y, e', hy⟩
          rw [e] at e'; rw [List.append_cancel_left e'] at hx; exact numeral64_unique hx hy) h6 h.dflt
    have e8 := lastOf_unique (says := fun (w : Bytes) (i : Int) => ∃ num, w = b!"tag:" ++ num ∧ Numeral64 num i)
      (by rintro w a b ⟨x, e, hx⟩ ⟨y, e', hy⟩
          rw [e] at e'; rw [List.append_cancel_left e'] at hx; exact numeral64_unique hx hy) h8 h.num
    have e7 := lastOf_unique (says := fun (w : Bytes) (i : Nat) => (w, i) ∈ stringWords)
      (by
        intro w a b ha hb
        simp only [stringWords, List.mem_cons, Prod.mk.injEq, List.not_mem_nil, or_false] at ha hb
        rcases ha with ⟨rfl, rfl⟩ | ⟨rfl, rfl⟩ | ⟨rfl, rfl⟩ | ⟨rfl, rfl⟩ <;> (simp at hb; exact hb.symm)) h7 h.str
    have e1 := hb h1 h.optional
    have e2 := hb h2 h.explicit
    have e3 := hb h3 h.application
    have e4 := hb h4 h.priv
    have e5 := hb h5 h.set
    have e9 := h.tag
    rw [← e8] at e9
    have e10 : fp.stringType = (parseFP s).stringType := by rw [h7', e7, h.strEq]
    have e11 : fp.tag = (parseFP s).tag := by rw [h8', e9]
    cases fp
    cases hq : parseFP s
    rw [hq] at e1 e2 e3 e4 e5 e6 e10 e11
    simp only at e1 e2 e3 e4 e5 e6 e10 e11
    rw [e1, e2, e3, e4, e5, e6, e10, e11]
  · rintro rfl
    exact ⟨splitByte 44 s, pieces_iff.2 rfl, h.optional, h.explicit, h.application, h.priv, h.set, h.dflt, ⟨st, h.str, h.strEq⟩, n, h.num, h.tag⟩

end Apk
