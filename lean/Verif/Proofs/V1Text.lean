import Verif.Spec.V1
import Verif.Proofs.Base
/-! # Texts in the v1 scheme: splitting, trimming, integers -/
namespace Apk

theorem splitByte_ne_nil (sep : UInt8) (l : Bytes) : splitByte sep l ≠ [] := by
  cases l with
  | nil => simp [splitByte]
  | cons c l =>
    unfold splitByte
    split
    · simp
    · split <;> simp

theorem splitByte_head {sep : UInt8} {l : Bytes} {t : Bytes} {ts : List Bytes} (h : splitByte sep l = t :: ts) :
    ∃ post, l = t ++ post ∧ sep ∉ t ∧ (post = [] ∨ post.head? = some sep) := by
  induction l generalizing t ts with
  | nil =>
    simp only [splitByte, List.cons.injEq] at h
    exact ⟨[], by simp [← h.1], by simp [← h.1], .inl rfl⟩
  | cons c l ih =>
    unfold splitByte at h
    split at h
    · rename_i hc
      simp only [List.cons.injEq] at h
      exact ⟨c :: l, by simp [← h.1], by simp [← h.1], .inr (by simp [hc])⟩
    · rename_i hc
      split at h
      · rename_i hn; exact absurd hn (splitByte_ne_nil _ _)
      · rename_i t' ts' ht
        simp only [List.cons.injEq] at h
        obtain ⟨post, h1, h2, h3⟩ := ih ht
        refine ⟨post, by rw [← h.1, h1]; rfl, ?_, h3⟩
        rw [← h.1]
        simp only [List.mem_cons, not_or]
        exact ⟨fun e => hc e.symm, h2⟩

theorem splitByte_mem_token {sep : UInt8} {l t : Bytes} (h : t ∈ splitByte sep l) : Token sep l t := by
  induction l generalizing t with
  | nil =>
    simp only [splitByte, List.mem_singleton] at h
    exact ⟨[], [], by simp [h], by simp [h], .inl rfl, .inl rfl⟩
  | cons c l ih =>
    unfold splitByte at h
    split at h
    · rename_i hc
      rcases List.mem_cons.1 h with h | h
      · exact ⟨[], c :: l, by simp [h], by simp [h], .inl rfl, .inr (by simp [hc])⟩
      · obtain ⟨pre, post, h1, h2, h3, h4⟩ := ih h
        refine ⟨c :: pre, post, by rw [h1]; rfl, h2, .inr ?_, h4⟩
        rcases h3 with h3 | h3
        · simp [h3, hc]
        · rw [List.getLast?_cons, h3]; rfl
    · rename_i hc
      split at h
      · rename_i hn; exact absurd hn (splitByte_ne_nil _ _)
      · rename_i t' ts' ht
        rcases List.mem_cons.1 h with h | h
        · obtain ⟨post, h1, h2, h3⟩ := splitByte_head ht
          refine ⟨[], post, by rw [h, h1]; rfl, ?_, .inl rfl, h3⟩
          rw [h]; simp only [List.mem_cons, not_or]; exact ⟨fun e => hc e.symm, h2⟩
        · obtain ⟨pre, post, h1, h2, h3, h4⟩ := ih (t := t) (by rw [ht]; exact List.mem_cons_of_mem _ h)
          rcases h3 with h3 | h3
          · -- the piece at the start of `l` is `t'`; a later equal piece is found elsewhere
            subst h3
            refine Classical.byContradiction (fun hno => ?_)
            -- `t ∈ ts'`, so there is an occurrence after a separator
            exact hno (splitByte_tail_token ht h hc)
          · refine ⟨c :: pre, post, by rw [h1]; rfl, h2, .inr ?_, h4⟩
            rw [List.getLast?_cons, h3]; rfl
where
  splitByte_tail_token {sep : UInt8} {l t' : Bytes} {ts' : List Bytes} {t : Bytes} {c : UInt8} (ht : splitByte sep l = t' :: ts')
      (h : t ∈ ts') (hc : ¬ c = sep) : Token sep (c :: l) t := by
    have key : ∀ (l t' : Bytes) (ts' : List Bytes), splitByte sep l = t' :: ts' → t ∈ ts' →
        ∃ pre post, l = pre ++ t ++ post ∧ sep ∉ t ∧ pre.getLast? = some sep ∧ (post = [] ∨ post.head? = some sep) := by
      intro l
      induction l with
      | nil => intro t' ts' ht h; simp only [splitByte, List.cons.injEq] at ht; rw [← ht.2] at h; cases h
      | cons d l ih =>
        intro t' ts' ht h
        unfold splitByte at ht
        split at ht
        · rename_i hd
          simp only [List.cons.injEq] at ht
          rw [← ht.2] at h
          cases hs : splitByte sep l with
          | nil => exact absurd hs (splitByte_ne_nil _ _)
          | cons u us =>
            rw [hs] at h
            rcases List.mem_cons.1 h with h | h
            · obtain ⟨post, h1, h2, h3⟩ := splitByte_head hs
              exact ⟨[d], post, by rw [h, h1]; rfl, by rw [h]; exact h2, by simp [hd], h3⟩
            · obtain ⟨pre, post, h1, h2, h3, h4⟩ := ih u us hs h
              exact ⟨d :: pre, post, by rw [h1]; rfl, h2, by rw [List.getLast?_cons, h3]; rfl, h4⟩
        · split at ht
          · rename_i hn; exact absurd hn (splitByte_ne_nil _ _)
          · rename_i u us hs
            simp only [List.cons.injEq] at ht
            rw [← ht.2] at h
            obtain ⟨pre, post, h1, h2, h3, h4⟩ := ih u us hs h
            exact ⟨d :: pre, post, by rw [h1]; rfl, h2, by rw [List.getLast?_cons, h3]; rfl, h4⟩
    obtain ⟨pre, post, h1, h2, h3, h4⟩ := key l t' ts' ht h
    exact ⟨c :: pre, post, by rw [h1]; rfl, h2, .inr (by rw [List.getLast?_cons, h3]; rfl), h4⟩

theorem splitByte_prefix {sep : UInt8} {t : Bytes} (ht : sep ∉ t) {post : Bytes} (hp : post = [] ∨ post.head? = some sep) :
    ∃ ts, splitByte sep (t ++ post) = t :: ts := by
  induction t with
  | nil =>
    rcases hp with hp | hp
    · exact ⟨[], by simp [hp, splitByte]⟩
    · cases post with
      | nil => simp at hp
      | cons c post =>
        simp only [List.head?_cons, Option.some.injEq] at hp
        exact ⟨splitByte sep post, by simp [splitByte, hp]⟩
  | cons c t ih =>
    simp only [List.mem_cons, not_or] at ht
    obtain ⟨ts, hts⟩ := ih ht.2
    refine ⟨ts, ?_⟩
    show splitByte sep (c :: (t ++ post)) = _
    unfold splitByte
    rw [if_neg (fun e => ht.1 e.symm), hts]

theorem token_mem_splitByte {sep : UInt8} {l t : Bytes} (h : Token sep l t) : t ∈ splitByte sep l := by
  obtain ⟨pre, post, rfl, h2, h3, h4⟩ := h
  rcases h3 with h3 | h3
  · subst h3
    obtain ⟨ts, hts⟩ := splitByte_prefix h2 h4
    rw [List.nil_append, hts]; exact List.mem_cons_self
  · have hne : pre ≠ [] := by intro e; rw [e] at h3; cases h3
    clear hne
    induction pre with
    | nil => cases h3
    | cons c pre ih =>
      show t ∈ splitByte sep (c :: (pre ++ t ++ post))
      have hmem : pre = [] → c = sep → t ∈ splitByte sep (pre ++ t ++ post) := by
        intro e _; subst e
        obtain ⟨ts, hts⟩ := splitByte_prefix h2 h4
        rw [List.nil_append, hts]; exact List.mem_cons_self
      have hmem' : t ∈ splitByte sep (pre ++ t ++ post) := by
        cases hp : pre with
        | nil => rw [hp] at h3; simp only [List.getLast?_singleton, Option.some.injEq] at h3; rw [← hp]; exact hmem hp h3
        | cons d ds =>
          rw [← hp]
          refine ih ?_
          rw [hp, List.getLast?_cons_cons] at h3; rw [hp]; exact h3
      unfold splitByte
      split
      · exact List.mem_cons_of_mem _ hmem'
      · rename_i hc
        split
        · rename_i hn; exact absurd hn (splitByte_ne_nil _ _)
        · rename_i u us hs
          rw [hs] at hmem'
          refine List.mem_cons_of_mem _ ?_
          rcases List.mem_cons.1 hmem' with e | e
          · -- t = u: then pre contains no separator, contradiction with its last byte unless another occurrence
            subst e
            have hpre : pre ≠ [] := by
              intro hp; rw [hp] at h3; simp only [List.getLast?_singleton, Option.some.injEq] at h3; exact hc h3
            -- find the piece after the last separator of `pre`
            have : ∀ (q : Bytes) (u : Bytes) (us : List Bytes), q.getLast? = some sep → splitByte sep (q ++ t ++ post) = u :: us → t ∈ us := by
              intro q
              induction q with
              | nil => intro u us hq; cases hq
              | cons d q ihq =>
                intro u us hq hs
                replace hs : splitByte sep (d :: (q ++ t ++ post)) = u :: us := hs
                have hin : q ≠ [] → ∃ u' us', splitByte sep (q ++ t ++ post) = u' :: us' ∧ t ∈ us' := by
                  intro hqn
                  cases hs' : splitByte sep (q ++ t ++ post) with
                  | nil => exact absurd hs' (splitByte_ne_nil _ _)
                  | cons u' us' =>
                    refine ⟨u', us', rfl, ihq u' us' ?_ hs'⟩
                    cases q with
                    | nil => exact absurd rfl hqn
                    | cons e es => rw [List.getLast?_cons_cons] at hq; exact hq
                unfold splitByte at hs
                split at hs
                · simp only [List.cons.injEq] at hs
                  rw [← hs.2]
                  by_cases hqn : q = []
                  · subst hqn
                    obtain ⟨ts, hts⟩ := splitByte_prefix h2 h4
                    rw [List.nil_append, hts]; exact List.mem_cons_self
                  · obtain ⟨u', us', h1, h2⟩ := hin hqn
                    rw [h1]; exact List.mem_cons_of_mem _ h2
                · rename_i hd
                  have hqn : q ≠ [] := by
                    intro e; rw [e] at hq; simp only [List.getLast?_singleton, Option.some.injEq] at hq; exact hd hq
                  obtain ⟨u', us', h1, h2⟩ := hin hqn
                  rw [h1] at hs
                  simp only [List.cons.injEq] at hs
                  rw [← hs.2]; exact h2
            refine this pre _ us ?_ hs
            cases hp : pre with
            | nil => exact absurd hp hpre
            | cons d ds => rw [hp, List.getLast?_cons_cons] at h3; exact h3
          · exact e

/-- Splitting at a separator gives exactly the pieces between separators. -/
theorem mem_splitByte (sep : UInt8) (l t : Bytes) : t ∈ splitByte sep l ↔ Token sep l t :=
  ⟨splitByte_mem_token, token_mem_splitByte⟩

/-! ## Trimming -/

/-- A concatenation of members of `rs`. -/
inductive Runs (rs : List Bytes) : Bytes → Prop
  | nil : Runs rs []
  | cons {r w : Bytes} : r ∈ rs → Runs rs w → Runs rs (r ++ w)

theorem Runs.append {rs : List Bytes} {a b : Bytes} (ha : Runs rs a) (hb : Runs rs b) : Runs rs (a ++ b) := by
  induction ha with
  | nil => exact hb
  | cons hr _ ih => rw [List.append_assoc]; exact .cons hr ih

theorem Runs.reverse {rs : List Bytes} {a : Bytes} (ha : Runs rs a) : Runs (rs.map List.reverse) a.reverse := by
  induction ha with
  | nil => exact .nil
  | cons hr _ ih =>
    rw [List.reverse_append]
    refine ih.append ?_
    have := Runs.cons (rs := rs.map List.reverse) (List.mem_map_of_mem (f := List.reverse) hr) .nil
    rwa [List.append_nil] at this

theorem spaceRunes_chars : spaceRunes = whiteChars.map String.utf8EncodeChar := by decide

theorem runs_iff (w : Bytes) : WhiteSpace w ↔ Runs spaceRunes w := by
  constructor <;> intro h
  · induction h with
    | nil => exact .nil
    | cons hc _ ih => exact .cons (by rw [spaceRunes_chars]; exact List.mem_map_of_mem hc) ih
  · induction h with
    | nil => exact .nil
    | cons hr _ ih =>
      rw [spaceRunes_chars] at hr
      obtain ⟨c, hc, rfl⟩ := List.mem_map.1 hr
      exact .cons hc ih

/-- No member of `rs` is empty or a proper prefix of another one. -/
def PrefixFree (rs : List Bytes) : Prop := (∀ r ∈ rs, r ≠ []) ∧ ∀ r ∈ rs, ∀ s ∈ rs, r <+: s → r = s

theorem spaceRunes_prefixFree : PrefixFree spaceRunes := by unfold PrefixFree; decide

theorem spaceRunes_suffixFree : PrefixFree (spaceRunes.map List.reverse) := by unfold PrefixFree; decide

theorem trimLeftOf_spec (rs : List Bytes) (fuel : Nat) (s : Bytes) : ∃ w, Runs rs w ∧ s = w ++ trimLeftOf rs fuel s := by
  induction fuel generalizing s with
  | zero => exact ⟨[], .nil, rfl⟩
  | succ n ih =>
    unfold trimLeftOf
    split
    · exact ⟨[], .nil, rfl⟩
    · rename_i r hr
      obtain ⟨w, hw, h⟩ := ih (s.drop r.length)
      have hp := List.find?_some hr
      have hm := List.mem_of_find?_eq_some hr
      simp only [hasPrefix, decide_eq_true_eq] at hp
      obtain ⟨t, rfl⟩ := hp
      simp only [List.drop_left'] at h ⊢
      refine ⟨r ++ w, .cons hm hw, ?_⟩
      rw [List.append_assoc, ← h]

theorem trimLeftOf_stop {rs : List Bytes} {c : Bytes} (h : ∀ r ∈ rs, ¬ r <+: c) (fuel : Nat) : trimLeftOf rs fuel c = c := by
  cases fuel with
  | zero => rfl
  | succ n =>
    unfold trimLeftOf
    rw [List.find?_eq_none.2 (by intro r hr; simp only [hasPrefix, decide_eq_true_eq]; exact h r hr)]

theorem trimLeftOf_runs {rs : List Bytes} (hf : PrefixFree rs) {w c : Bytes} (hw : Runs rs w) (h : ∀ r ∈ rs, ¬ r <+: c)
    (fuel : Nat) (hfuel : w.length < fuel) : trimLeftOf rs fuel (w ++ c) = c := by
  induction hw generalizing fuel with
  | nil => exact trimLeftOf_stop h fuel
  | @cons r w hr _ ih =>
    cases fuel with
    | zero => omega
    | succ n =>
      have hpos : 0 < r.length := List.length_pos_iff.2 (hf.1 r hr)
      unfold trimLeftOf
      have hfind : rs.find? (fun s => hasPrefix (r ++ w ++ c) s) = some r := by
        cases hfi : rs.find? (fun s => hasPrefix (r ++ w ++ c) s) with
        | none =>
          have := List.find?_eq_none.1 hfi r hr
          simp only [hasPrefix, decide_eq_true_eq] at this
          exact absurd ⟨w ++ c, by simp⟩ this
        | some s =>
          have h1 := List.find?_some hfi
          have h2 := List.mem_of_find?_eq_some hfi
          simp only [hasPrefix, decide_eq_true_eq] at h1
          have h3 : r <+: r ++ w ++ c := ⟨w ++ c, by simp⟩
          rcases List.prefix_or_prefix_of_prefix h1 h3 with h4 | h4
          · rw [hf.2 s h2 r hr h4]
          · rw [hf.2 r hr s h2 h4]
      rw [hfind]
      simp only
      have : (r ++ w ++ c).drop r.length = w ++ c := by rw [List.append_assoc, List.drop_left]
      rw [this]
      simp only [List.length_append] at hfuel
      exact ih n (by omega)

theorem trimSpace_spec (s : Bytes) : ∃ w1 w2, WhiteSpace w1 ∧ WhiteSpace w2 ∧ s = w1 ++ trimSpace s ++ w2 := by
  unfold trimSpace
  simp only
  obtain ⟨w1, h1, e1⟩ := trimLeftOf_spec spaceRunes (s.length + 1) s
  generalize trimLeftOf spaceRunes (s.length + 1) s = l at e1 ⊢
  obtain ⟨w2, h2, e2⟩ := trimLeftOf_spec (spaceRunes.map List.reverse) (l.length + 1) l.reverse
  generalize trimLeftOf (spaceRunes.map List.reverse) (l.length + 1) l.reverse = m at e2 ⊢
  refine ⟨w1, w2.reverse, (runs_iff _).2 h1, ?_, ?_⟩
  · rw [runs_iff]
    have := h2.reverse
    rwa [List.map_map, show (List.reverse ∘ List.reverse : Bytes → Bytes) = id from by funext x; simp, List.map_id] at this
  · have : l = m.reverse ++ w2.reverse := by rw [← List.reverse_append, ← e2, List.reverse_reverse]
    rw [e1, this, List.append_assoc]

/-- Bytes that neither begin nor end a white space character. -/
def NotSpaceEnd (c : UInt8) : Prop := (∀ r ∈ spaceRunes, r.head? ≠ some c) ∧ (∀ r ∈ spaceRunes, r.getLast? ≠ some c)

theorem trimSpace_of {w1 c w2 : Bytes} (h1 : WhiteSpace w1) (h2 : WhiteSpace w2) (hc : c ≠ [])
    (hh : ∀ x, c.head? = some x → NotSpaceEnd x) (hl : ∀ x, c.getLast? = some x → NotSpaceEnd x) :
    trimSpace (w1 ++ c ++ w2) = c := by
  unfold trimSpace
  simp only
  have e1 : trimLeftOf spaceRunes ((w1 ++ c ++ w2).length + 1) (w1 ++ c ++ w2) = c ++ w2 := by
    rw [List.append_assoc]
    refine trimLeftOf_runs spaceRunes_prefixFree ((runs_iff _).1 h1) ?_ _ (by simp only [List.length_append]; omega)
    intro r hr hp
    cases c with
    | nil => exact hc rfl
    | cons x c =>
      cases r with
      | nil => exact spaceRunes_prefixFree.1 _ hr rfl
      | cons y r =>
        rw [List.cons_append, List.cons_prefix_cons] at hp
        exact (hh x rfl).1 _ hr (by simp [hp.1])
  rw [e1]
  have e2 : trimLeftOf (spaceRunes.map List.reverse) ((c ++ w2).length + 1) (c ++ w2).reverse = c.reverse := by
    rw [List.reverse_append]
    refine trimLeftOf_runs spaceRunes_suffixFree ((runs_iff _).1 h2).reverse ?_ _ (by simp only [List.length_append, List.length_reverse]; omega)
    intro r hr hp
    obtain ⟨r', hr', rfl⟩ := List.mem_map.1 hr
    have hs : r' <:+ c := by rwa [← List.reverse_prefix]
    obtain ⟨u, rfl⟩ := hs
    have hne := spaceRunes_prefixFree.1 _ hr'
    obtain ⟨q, x, rfl⟩ : ∃ q x, r' = q ++ [x] := ⟨r'.dropLast, r'.getLast hne, (List.dropLast_concat_getLast hne).symm⟩
    have hlast : (u ++ (q ++ [x])).getLast? = some x := by rw [← List.append_assoc, List.getLast?_concat]
    exact (hl x hlast).2 _ hr' (by rw [List.getLast?_concat])
  rw [e2, List.reverse_reverse]

/-! ## Integers -/

theorem foldl_digits_append (a b : Bytes) (n : Nat) :
    (a ++ b).foldl (fun n c => 10 * n + (c.toNat - 48)) n = b.foldl (fun n c => 10 * n + (c.toNat - 48)) (a.foldl (fun n c => 10 * n + (c.toNat - 48)) n) :=
  List.foldl_append ..

theorem foldl_digits_ge (a : Bytes) (n : Nat) : n ≤ a.foldl (fun n c => 10 * n + (c.toNat - 48)) n := by
  induction a generalizing n with
  | nil => exact Nat.le_refl _
  | cons c a ih => simp only [List.foldl_cons]; exact Nat.le_trans (by omega) (ih _)

theorem foldl_digits_zero {a : Bytes} (hd : ∀ c ∈ a, 48 ≤ c.toNat ∧ c.toNat ≤ 57)
    (h : a.foldl (fun n c => 10 * n + (c.toNat - 48)) 0 = 0) : ∀ c ∈ a, c = 48 := by
  induction a with
  | nil => simp
  | cons c a ih =>
    simp only [List.foldl_cons] at h
    have h0 := foldl_digits_ge a (10 * 0 + (c.toNat - 48))
    rw [h] at h0
    have hc := hd c List.mem_cons_self
    have e : c.toNat = 48 := by omega
    rw [show 10 * 0 + (c.toNat - 48) = 0 by omega] at h
    intro x hx
    rcases List.mem_cons.1 hx with hx | hx
    · subst hx; exact UInt8.toNat_inj.1 (by rw [e]; rfl)
    · exact ih (fun c hc => hd c (List.mem_cons_of_mem _ hc)) h x hx

theorem foldl_digits_zeros {a : Bytes} (h : ∀ c ∈ a, c = 48) : a.foldl (fun n (c : UInt8) => 10 * n + (c.toNat - 48)) 0 = 0 := by
  induction a with
  | nil => rfl
  | cons c a ih =>
    have := h c List.mem_cons_self
    subst this
    simp only [List.foldl_cons]
    exact ih (fun c hc => h c (List.mem_cons_of_mem _ hc))

theorem digitsVal_two {ds : Bytes} : digitsVal ds = some 2 ↔ ∃ z, (∀ c ∈ z, c = 48) ∧ ds = z ++ [50] := by
  constructor
  · intro h
    cases ds with
    | nil => cases h
    | cons d ds' =>
      simp only [digitsVal] at h
      split at h
      · rename_i hall
        simp only [List.all_eq_true, decide_eq_true_eq] at hall
        generalize hds : d :: ds' = ds at *
        have hne : ds ≠ [] := by rw [← hds]; simp
        obtain ⟨z, x, rfl⟩ : ∃ z x, ds = z ++ [x] := ⟨ds.dropLast, ds.getLast hne, (List.dropLast_concat_getLast hne).symm⟩
        rw [Option.some.injEq, foldl_digits_append] at h
        simp only [List.foldl_cons, List.foldl_nil] at h
        have hx := hall x (by simp)
        have hz : z.foldl (fun n c => 10 * n + (c.toNat - 48)) 0 = 0 := by omega
        have hx2 : x.toNat = 50 := by omega
        refine ⟨z, foldl_digits_zero (fun c hc => hall c (by simp [hc])) hz, ?_⟩
        rw [show x = 50 from UInt8.toNat_inj.1 (by rw [hx2]; rfl)]
      · cases h
  · rintro ⟨z, hz, e⟩
    cases ds with
    | nil => simp at e
    | cons d ds =>
    have hall : (z ++ [50]).all (fun c => decide (48 ≤ c.toNat ∧ c.toNat ≤ 57)) = true := by
      simp only [List.all_eq_true, decide_eq_true_eq]
      intro c hc
      rcases List.mem_append.1 hc with hc | hc
      · rw [hz c hc]; decide
      · rw [List.mem_singleton.1 hc]; decide
    simp only [digitsVal]
    · rw [e, if_pos hall, foldl_digits_append, foldl_digits_zeros hz]; rfl

theorem goParseInt32_two {s : Bytes} : goParseInt32 s = some 2 ↔ ∃ sign z, (sign = [] ∨ sign = [43]) ∧ (∀ c ∈ z, c = 48) ∧ s = sign ++ z ++ [50] := by
  constructor
  · intro h
    cases s with
    | nil => cases h
    | cons c ds =>
      unfold goParseInt32 at h
      simp only at h
      split at h
      · cases hv : digitsVal ds with
        | none => rw [hv] at h; cases h
        | some n =>
          rw [hv, Option.bind_some] at h
          split at h
          · simp only [Option.some.injEq] at h; omega
          · cases h
      · rename_i hm
        cases hv : digitsVal (if c = 43 then ds else c :: ds) with
        | none => rw [hv] at h; cases h
        | some n =>
          rw [hv, Option.bind_some] at h
          split at h
          · simp only [Option.some.injEq] at h
            have hn : n = 2 := by omega
            subst hn
            obtain ⟨z, hz, e⟩ := digitsVal_two.1 hv
            split at e
            · rename_i hc
              exact ⟨[43], z, .inr rfl, hz, by rw [hc, e]; simp⟩
            · exact ⟨[], z, .inl rfl, hz, by rw [e]; simp⟩
          · cases h
  · rintro ⟨sign, z, hs, hz, rfl⟩
    have hv := digitsVal_two.2 ⟨z, hz, rfl⟩
    rcases hs with rfl | rfl
    · cases z with
      | nil => decide
      | cons c z =>
        have hc := hz c List.mem_cons_self
        subst hc
        show goParseInt32 (48 :: (z ++ [50])) = some 2
        unfold goParseInt32
        simp only
        rw [if_neg (by decide), if_neg (by decide)]
        rw [show (48 : UInt8) :: (z ++ [50]) = (48 :: z) ++ [50] from rfl, hv]
        rfl
    · show goParseInt32 (43 :: (z ++ [50])) = some 2
      unfold goParseInt32
      simp only
      rw [if_neg (by decide), if_pos trivial, hv]
      rfl

/-- The downgrade check finds exactly the lists that contain the number 2. -/
theorem listsScheme2_iff (l : Bytes) : listsScheme2 l = true ↔ ListsTwo l := by
  unfold listsScheme2
  simp only [List.any_eq_true, decide_eq_true_eq]
  constructor
  · rintro ⟨t, ht, h⟩
    obtain ⟨sign, z, hs, hz, e⟩ := goParseInt32_two.1 h
    obtain ⟨w1, w2, hw1, hw2, et⟩ := trimSpace_spec t
    refine ⟨t, (mem_splitByte _ _ _).1 ht, w1, sign, z, w2, hw1, hw2, hs, hz, ?_⟩
    rw [et, e]; simp [List.append_assoc]
  · rintro ⟨t, ht, w1, sign, z, w2, hw1, hw2, hs, hz, e⟩
    refine ⟨t, (mem_splitByte _ _ _).2 ht, ?_⟩
    have : trimSpace t = sign ++ z ++ [50] := by
      rw [e, show w1 ++ sign ++ z ++ [50] ++ w2 = w1 ++ (sign ++ z ++ [50]) ++ w2 by simp [List.append_assoc]]
      refine trimSpace_of hw1 hw2 (by simp) ?_ ?_
      · intro x hx
        have hx' : x = 43 ∨ x = 48 ∨ x = 50 := by
          rcases hs with rfl | rfl
          · cases z with
            | nil => simp at hx; exact .inr (.inr hx.symm)
            | cons c z =>
              have hc := hz c List.mem_cons_self
              simp only [List.nil_append, List.cons_append, List.head?_cons, Option.some.injEq] at hx
              exact .inr (.inl (by rw [← hx, hc]))
          · simp only [List.cons_append, List.head?_cons, Option.some.injEq] at hx
            exact .inl hx.symm
        rcases hx' with rfl | rfl | rfl <;> (unfold NotSpaceEnd; decide)
      · intro x hx
        rw [List.getLast?_concat, Option.some.injEq] at hx
        subst hx
        unfold NotSpaceEnd; decide
    rw [this]
    exact goParseInt32_two.2 ⟨sign, z, hs, hz, rfl⟩

end Apk
