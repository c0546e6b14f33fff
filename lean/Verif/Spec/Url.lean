import Verif.Models.Url

/-!
# What an accepted URL looks like

A grammar, in terms of the text alone: `scheme://netloc`, then a path with
optional parameters after its last segment, `?query`, `#fragment`.
-/

namespace Verif.Url.Spec

/-- A scheme: a letter, then letters, digits, `+`, `-` and `.`, in lower case. -/
def Scheme (s : PyStr) : Prop :=
  (∃ c t, s = c :: t ∧ 97 ≤ c.toNat ∧ c.toNat ≤ 122) ∧
  ∀ c ∈ s, (97 ≤ c.toNat ∧ c.toNat ≤ 122) ∨ (48 ≤ c.toNat ∧ c.toNat ≤ 57) ∨ c = '+' ∨ c = '-' ∨ c = '.'

/-- None of the delimiters `/`, `?` and `#`. -/
def Plain (s : PyStr) : Prop := ∀ c ∈ s, c ≠ '/' ∧ c ≠ '?' ∧ c ≠ '#'

/-- An optional part with its delimiter: absent rather than empty. -/
def Opt (sep : Char) (part text : PyStr) : Prop := (part = [] ∧ text = []) ∨ (part ≠ [] ∧ text = sep :: part)

/-- The text is the URL with the given parts; the path is written as its
directory, which ends with a slash, and its last segment. -/
structure IsUrl (t scheme netloc dir seg params query fragment : PyStr) : Prop where
  text : ∃ p q f, Opt ';' params p ∧ Opt '?' query q ∧ Opt '#' fragment f ∧
    t = scheme ++ s% "://" ++ netloc ++ dir ++ seg ++ p ++ q ++ f
  scheme : Scheme scheme
  netloc : netloc ≠ [] ∧ Plain netloc
  dir : (dir = [] ∧ seg = [] ∧ params = []) ∨
    (dir.head? = some '/' ∧ (∃ d, dir = d ++ s% "/") ∧ ∀ c ∈ dir, c ≠ '?' ∧ c ≠ '#')
  seg : Plain seg
  params : Plain params
  query : '#' ∉ query

end Verif.Url.Spec
