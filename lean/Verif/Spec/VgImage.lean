import Verif.Model.VgImage
import Verif.Spec.ImageMem

/-!
# What a user of the C++ handles of images relies on
-/

namespace Nx

/-- Variable `v` exists and has the handle `h`. -/
def VarIs (w : VgWorld) (v : Nat) (h : VgHandle) : Prop := w.vars[v]? = some (some h)

/-- Image `i` is allocated. -/
def ImLive (w : VgWorld) (i : Nat) : Prop := ∃ hd, ImIs w.im i hd

/-- Some variable has image `i` and is responsible for it. -/
def Owned (w : VgWorld) (i : Nat) : Prop := ∃ v h, VarIs w v h ∧ h.own = true ∧ h.img = i

/-- Variable `v` has an image that is allocated. -/
def Usable (w : VgWorld) (v : Nat) (h : VgHandle) : Prop := VarIs w v h ∧ ImLive w h.img

/-- The rules a user has to follow. -/
def VgAllowed (w : VgWorld) : VgOp → Prop
  | .ctor => True
  | .ctorWrap i own => own = true → ImLive w i ∧ ¬ Owned w i
  | .copyCtor s | .drop s => ∃ h, VarIs w s h
  | .assign v s | .swapWith v s => (∃ h, VarIs w v h) ∧ ∃ h, VarIs w s h
  | .wrapImg v i own => (∃ h, VarIs w v h) ∧ (own = true → ImLive w i ∧ ¬ Owned w i)
  | .wrapData v data wd ht st rgba float _ => ∃ h, Usable w v h ∧ (if rgba then 4 else 1) * wd ≤ st ∧ st * ht ≤ 2147483647 ∧
      (if rgba then 4 else 1) * wd ≤ 2147483647 ∧ st * ht * (if float then 4 else 1) ≤ data.length
  | .create v wd ht st rgba _ => ∃ h, Usable w v h ∧ Fit wd ht st rgba
  | .createLike v s => (∃ h, Usable w v h) ∧ ∃ h, Usable w s h
  | .copyOf v s => ∃ h h', Usable w v h ∧ Usable w s h' ∧ (h.img = h'.img → v = s)
  | .clone v | .release v | .setZero v => ∃ h, Usable w v h
  | .c op => ImAllowed w.im op ∧ ∀ i, op = .free i → ¬ Owned w i

/-- The states that programs reach by following the rules. -/
inductive VgReach : VgWorld → Prop
  | init : VgReach ⟨⟨⟨[], []⟩, []⟩, 0, []⟩
  | step {w w' op} : VgReach w → VgAllowed w op → vgStep w op = .ok w' → VgReach w'

/-- What may happen to the images: an image with an owner is allocated, goes with its last owner and only then, and an image without an
owner
was there before without an owner or is from a C function. -/
structure VgKeeps (w w' : VgWorld) (op : VgOp) : Prop where
  owned : ∀ i, Owned w' i → ImLive w' i
  gone : ∀ i, ImLive w i → ¬ ImLive w' i → (Owned w i ∧ ¬ Owned w' i) ∨ op = .c (.free i)
  kept : ∀ i, ImLive w' i → ¬ Owned w' i → (ImLive w i ∧ ¬ Owned w i) ∨ (i = w.im.hdrs.length ∧ ∃ o, op = .c o)

/-- The picture a variable shows. -/
def Shows (w : VgWorld) (v : Nat) (i : Nat) : Prop := ∃ h, VarIs w v h ∧ h.img = i

/-- What a call must do: the images of the variables afterwards, and the images that change. -/
def VgEffect (w w' : VgWorld) : VgOp → Prop
  | .ctor => w'.vars.length = w.vars.length + 1 ∧ (∀ v < w.vars.length, w'.vars[v]? = w.vars[v]?) ∧
      (∃ i, Shows w' w.vars.length i ∧ ¬ ImLive w i ∧ imShape w'.im i = some (packed 0 0 false false)) ∧
      ∀ i, ImLive w i → Same w.im i w'.im i
  | .ctorWrap i _ => (∀ v < w.vars.length, w'.vars[v]? = w.vars[v]?) ∧ Shows w' w.vars.length i ∧ w'.im = w.im
  | .copyCtor s => (∀ v < w.vars.length, w'.vars[v]? = w.vars[v]?) ∧ (∀ i, Shows w s i → Shows w' w.vars.length i) ∧ w'.im = w.im
  | .assign v s => (∀ u, u ≠ v → w'.vars[u]? = w.vars[u]?) ∧ (∀ i, Shows w s i → Shows w' v i) ∧
      ∀ i, ImLive w' i → Same w.im i w'.im i
  | .swapWith v s => (∀ u, u ≠ v → u ≠ s → w'.vars[u]? = w.vars[u]?) ∧ w'.vars[v]? = w.vars[s]? ∧ w'.vars[s]? = w.vars[v]? ∧ w'.im = w.im
  | .wrapImg v i _ => (∀ u, u ≠ v → w'.vars[u]? = w.vars[u]?) ∧ Shows w' v i ∧ ∀ i, ImLive w' i → Same w.im i w'.im i
  | .wrapData v data wd ht st rgba float own => w'.vars = w.vars ∧ ∀ i, Shows w v i →
      ImEffect w.im w'.im (.wrap i data wd ht st rgba float own)
  | .create v wd ht st rgba float => w'.vars = w.vars ∧ ∀ i, Shows w v i → ImEffect w.im w'.im (.resize i wd ht st rgba float)
  | .createLike v s => w'.vars = w.vars ∧ ∀ i j, Shows w v i → Shows w s j →
      imShape w'.im i = imShape w.im j ∧ ∀ l, l ≠ i → Same w.im l w'.im l
  | .copyOf v s => w'.vars = w.vars ∧ ∀ i j, Shows w v i → Shows w s j → Same w.im j w'.im i ∧ ∀ l, l ≠ i → Same w.im l w'.im l
  | .clone s => (∀ v < w.vars.length, w'.vars[v]? = w.vars[v]?) ∧
      (∃ i, Shows w' w.vars.length i ∧ ¬ ImLive w i ∧ ∀ j, Shows w s j → Same w.im j w'.im i) ∧ ∀ i, ImLive w i → Same w.im i w'.im i
  | .release v => w'.vars = w.vars ∧ ∀ i, Shows w v i → ImEffect w.im w'.im (.release i)
  | .setZero v => w'.vars = w.vars ∧ ∀ i, Shows w v i → ImEffect w.im w'.im (.setZero i)
  | .drop v => (∀ u, u ≠ v → w'.vars[u]? = w.vars[u]?) ∧ w'.vars[v]? = some none ∧ ∀ i, ImLive w' i → Same w.im i w'.im i
  | .c op => w'.vars = w.vars ∧ ImEffect w.im w'.im op

end Nx
