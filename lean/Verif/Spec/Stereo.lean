import Verif.Model.Stereo
import Verif.Spec.SiftMatch
import Verif.Lemmas.Homography
import Verif.Props.Brief

/-! # Matches of two views -/

namespace Nx

/-- A match of these two keypoints: their positions in the image of full size, identifiers, cost and mark, and the standard deviations of
half a pixel of their level. -/
structure Joins (rd : Rat → Rat) (k kp : NumKey) (cost : Rat) (inlier : Bool) (m : PMatch Rat) : Prop where
  x_eq : m.x = (rd (k.xs * k.scale), rd (k.ys * k.scale))
  xp_eq : m.xp = (rd (kp.xs * kp.scale), rd (kp.ys * kp.scale))
  cost_eq : m.cost = cost
  sigma_eq : m.sigmaX = rd (1 / 2 * k.scale) ∧ m.sigmaXp = rd (1 / 2 * kp.scale)
  id_eq : m.id.toNat = k.id % 2 ^ 64 ∧ m.idp.toNat = kp.id % 2 ^ 64
  inlier_eq : m.inlier = inlier

/-- Among the keypoints that have a descriptor, `kp` is the first of those nearest to `d`, at the distance `c`. -/
def NearestKey (f : NumKey → Option Bytes) (keys : List NumKey) (d : Bytes) (kp : NumKey) (c : Nat) : Prop :=
  ∃ (j : Nat) (dp : Bytes), keys[j]? = some kp ∧ f kp = some dp ∧ c = hamming d dp ∧
    ∀ (j' : Nat) (k' : NumKey) (d' : Bytes), keys[j']? = some k' → f k' = some d' → c ≤ hamming d d' ∧ (j' < j → c < hamming d d')

/-- What becomes of a keypoint of the left view: nothing without a descriptor or if the nearest keypoint is at a distance of 70 or more. -/
def MatchedAs (rd : Rat → Rat) (f fp : NumKey → Option Bytes) (rk : List NumKey) (k : NumKey) (r : Option (PMatch Rat)) : Prop :=
  match f k, r with
  | none, none => True
  | none, some _ => False
  | some d, none => ∃ kp c, NearestKey fp rk d kp c ∧ 70 ≤ c
  | some d, some m => ∃ kp c, NearestKey fp rk d kp c ∧ c < 70 ∧ Joins rd k kp c false m

/-- Distance of a keypoint from a point. -/
def keyDist (rd sqrt : Rat → Rat) (x : Rat × Rat) (k : NumKey) : Rat :=
  sqrt ((rd (k.xs * k.scale) - x.1) ^ 2 + (rd (k.ys * k.scale) - x.2) ^ 2)

/-- The keypoint at `j` is the first of the nearest, and at a distance below 3. -/
def NearPoint (rd sqrt : Rat → Rat) (x : Rat × Rat) (keys : List NumKey) (j : Nat) (k : NumKey) : Prop :=
  keys[j]? = some k ∧ keyDist rd sqrt x k < 3 ∧
    ∀ (j' : Nat) (k' : NumKey), keys[j']? = some k' → keyDist rd sqrt x k ≤ keyDist rd sqrt x k' ∧ (j' < j → keyDist rd sqrt x k < keyDist rd sqrt x k')

/-- The homography takes the point to no point at all, or to one without a keypoint nearer than 3. -/
def Lonely (rd sqrt : Rat → Rat) (h : M3 Rat) (keys : List NumKey) (p : Rat × Rat) : Prop :=
  ∀ q, Projects h.mat p q → ∀ (j : Nat) (k : NumKey), keys[j]? = some k → 3 ≤ keyDist rd sqrt q k

/-- What becomes of a keypoint of the left view when the homography is known. -/
def GuidedAs (rd sqrt : Rat → Rat) (h : M3 Rat) (rk : List NumKey) (k : NumKey) (r : Option (PMatch Rat)) : Prop :=
  match r with
  | none => Lonely rd sqrt h rk (rd (k.xs * k.scale), rd (k.ys * k.scale))
  | some m => ∃ q j kp, Projects h.mat (rd (k.xs * k.scale), rd (k.ys * k.scale)) q ∧ NearPoint rd sqrt q rk j kp ∧ Joins rd k kp 0 true m

end Nx
