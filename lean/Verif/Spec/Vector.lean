import Verif.Model.Vector

/-!
# Specification of generic vectors: lists of items
-/

namespace Nx

/-- What the user sees of all vectors: a list of items of `k` bytes (`none`: a byte without value), or `none` for a vector that does not exist. -/
abbrev VState := Nat → Option (List (List (Option Byte)))

/-- Vector `b` shows the list: the fields agree with it, and each item is read from `data[i]`. -/
def VShows (k : Nat) (w : VWorld) (b : Nat) : Option (List (List (Option Byte))) → Prop
  | none => ∀ f, w.fields[b]? ≠ some (some f)
  | some l => ∃ f, w.fields[b]? = some (some f) ∧ f.size = l.length ∧ f.size ≤ f.cap ∧ ∀ i x, l[i]? = some x → vGet k w b i = .ok x ∧ x.length = k

/-- The rules for the user: `n` is the number of vectors made so far. -/
def VAllowed (k : Nat) (A : VState) : VOp → Prop
  | .alloc | .new _ => True
  | .free b | .release b | .reserve b _ | .resize b _ | .clear b | .copy0 b => (A b).isSome
  | .wrap b data sz _ => (A b).isSome ∧ sz * k ≤ data.length
  | .copy d s => (A d).isSome ∧ (A s).isSome ∧ d ≠ s
  | .push b item => (A b).isSome ∧ item.length = k
  | .put b i item => (∃ l, A b = some l ∧ i < l.length) ∧ item.length = k

/-- The items in memory of the user. -/
def itemsOf (k : Nat) (data : Bytes) (sz : Nat) : List (List (Option Byte)) :=
  (List.range sz).map (fun i => ((data.drop (i * k)).take k).map some)

/-- What a call does; `n` is the number of vectors made so far. -/
def VEffect (k n : Nat) (A A' : VState) : VOp → Prop
  | .alloc | .new _ => A' n = some [] ∧ ∀ c, c ≠ n → A' c = A c
  | .free b => A' b = none ∧ ∀ c, c ≠ b → A' c = A c
  | .release b | .clear b => A' b = some [] ∧ ∀ c, c ≠ b → A' c = A c
  | .reserve _ _ => ∀ c, A' c = A c
  | .resize b m => (∃ l l', A b = some l ∧ A' b = some l' ∧ l'.length = m ∧ ∀ i, i < l.length → i < m → l'[i]? = l[i]?) ∧ ∀ c, c ≠ b → A' c = A c
  | .wrap b data sz _ => A' b = some (itemsOf k data sz) ∧ ∀ c, c ≠ b → A' c = A c
  | .copy d s => A' d = A s ∧ ∀ c, c ≠ d → A' c = A c
  | .copy0 s => A' n = A s ∧ ∀ c, c ≠ n → A' c = A c
  | .push b item => (∃ l, A b = some l ∧ A' b = some (l ++ [item.map some])) ∧ ∀ c, c ≠ b → A' c = A c
  | .put b i item => (∃ l, A b = some l ∧ A' b = some (l.set i (item.map some))) ∧ ∀ c, c ≠ b → A' c = A c

/-- States that are reached from the empty program by allowed calls. -/
inductive VReach (k : Nat) : VWorld → Prop
  | init : VReach k ⟨⟨[], []⟩, []⟩
  | step {w w' op A} : VReach k w → (∀ b, VShows k w b (A b)) → VAllowed k A op → vStep k w op = .ok w' → VReach k w'

end Nx
