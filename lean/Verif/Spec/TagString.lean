import Verif.Spec.Top
import Verif.Spec.V1Exact
import Verif.Model.Unmarshal
/-!
# Tag strings of struct fields

What the package comment of encoding/asn1 says about the words of a tag string. Only the type `FP` of the parsed parameters is shared with
the model.
-/
namespace Apk

/-- `v` is a decimal numeral, with an optional sign, of the 64-bit signed integer `i`. -/
def Numeral64 (v : Bytes) (i : Int) : Prop :=
  ∃ sign ds : Bytes, v = sign ++ ds ∧ ds ≠ [] ∧ (∀ c ∈ ds, 48 ≤ c.toNat ∧ c.toNat ≤ 57) ∧
    (((sign = [] ∨ sign = [43]) ∧ i = decimalValue ds) ∨ (sign = [45] ∧ i = -(decimalValue ds : Int))) ∧ -2 ^ 63 ≤ i ∧ i < 2 ^ 63

/-- `o` is what the last word that says something says. -/
def LastOf {α : Type} (says : Bytes → α → Prop) (words : List Bytes) (o : Option α) : Prop :=
  (o = none ∧ ∀ w ∈ words, ∀ v, ¬ says w v) ∨
  ∃ pre w post v, words = pre ++ w :: post ∧ says w v ∧ (∀ w' ∈ post, ∀ v', ¬ says w' v') ∧ o = some v

/-- The words for the types of strings. -/
def stringWords : List (Bytes × Nat) := [(b!"ia5", 22), (b!"printable", 19), (b!"numeric", 18), (b!"utf8", 12)]

/-- `TagString s fp`: the words of `s`, separated by commas, say `fp`. A word that needs a tag stands for tag 0 if no number is given; unknown words
    and numbers that cannot be read are ignored. -/
def TagString (s : Bytes) (fp : FP) : Prop :=
  ∃ words, Pieces 44 s words ∧
    (fp.optional = true ↔ b!"optional" ∈ words) ∧
    (fp.explicit = true ↔ b!"explicit" ∈ words) ∧
    (fp.application = true ↔ b!"application" ∈ words) ∧
    (fp.priv = true ↔ b!"private" ∈ words) ∧
    (fp.set = true ↔ b!"set" ∈ words) ∧
    LastOf (fun w i => ∃ num, w = b!"default:" ++ num ∧ Numeral64 num i) words fp.dflt ∧
    (∃ n, LastOf (fun w i => (w, i) ∈ stringWords) words n ∧ fp.stringType = n.getD 0) ∧
    ∃ n, LastOf (fun w i => ∃ num, w = b!"tag:" ++ num ∧ Numeral64 num i) words n ∧
      fp.tag = n.or (if b!"explicit" ∈ words ∨ b!"application" ∈ words ∨ b!"private" ∈ words then some 0 else none)

end Apk
