import Verif.Model.Stereo
import Verif.Spec.Stereo
import Verif.Props.DescMap
import Verif.Lemmas.Sample
import Mathlib.Tactic.Ring

/-! # C104: matches of two views -/

namespace Nx

/-- The entries of the map: identifier and descriptor of the keypoints that have one. -/
def frameEntries (f : NumKey → Option Bytes) (keys : List NumKey) : List (UInt64 × Bytes) :=
  keys.filterMap fun k => (f k).map fun d => (UInt64.ofNat k.id, d)

theorem filterMap_take_succ {α β : Type} (g : α → Option β) {l : List α} {i : Nat} {a : α} (h : l[i]? = some a) :
    (l.take (i + 1)).filterMap g = (l.take i).filterMap g ++ (g a).toList := by
  obtain ⟨hi, rfl⟩ := List.getElem?_eq_some_iff.mp h
  rw [List.take_succ_eq_append_getElem hi, List.filterMap_append]
  cases hg : g l[i] <;> simp [hg]

theorem matchFromKeys_joins (rd : Rat → Rat) (k kp : NumKey) (c : Rat) (b : Bool) :
    Joins rd k kp c b (matchFromKeys rd k kp keySigma0 c b) :=
  ⟨rfl, rfl, rfl, ⟨rfl, rfl⟩, ⟨by simp [matchFromKeys], by simp [matchFromKeys]⟩, rfl⟩

section
variable {ext : NumKey → Res (Option Bytes)} {f : NumKey → Option Bytes} {oct : Nat} {keys : List NumKey}

/-- C104. Extraction stores the descriptors of the keypoints that have one, in their order, under their identifiers. -/
theorem c104_extract (m : DescMap) (hext : ∀ k ∈ keys, ext k = .ok (f k)) (hlen : ∀ k ∈ keys, ∀ d, f k = some d → d.length = oct)
    (hsz : keys.length * oct ≤ 2147483647) (hn : keys.length ≤ 2147483647) :
    ∃ m', extractFrame ext oct keys m = .ok m' ∧ DmHolds m' oct (frameEntries f keys) := by
  obtain ⟨m', e, hm⟩ := forLoop_spec (fun i m' => DmHolds m' oct (frameEntries f (keys.take i))) (n := keys.length)
    (body := extractBody ext keys) (i0 := 0) (s := dmSetOctets m oct) (Nat.zero_le _) ⟨rfl, rfl, rfl, by simp [frameEntries]⟩ (by
      intro i s _ hi hs
      have hk : keys[i]? = some keys[i] := List.getElem?_eq_getElem hi
      have hmem : keys[i] ∈ keys := List.getElem_mem hi
      unfold extractBody
      rw [readAt_ok hi, Res.ok_bind, hext _ hmem, Res.ok_bind]
      have htake := filterMap_take_succ (fun k => (f k).map fun d => (UInt64.ofNat k.id, d)) hk
      cases hd : f keys[i] with
      | none =>
        refine ⟨s, rfl, ?_⟩
        unfold frameEntries at hs ⊢
        rw [htake, hd]
        simpa using hs
      | some d =>
        have hl := hlen _ hmem d hd
        have hle : (frameEntries f (keys.take i)).length ≤ i := by
          unfold frameEntries
          refine Nat.le_trans (List.length_filterMap_le _ _) ?_
          rw [List.length_take]
          omega
        obtain ⟨s', e', h'⟩ := c93_add hs (UInt64.ofNat keys[i].id) d (by omega) (by omega)
          (Nat.le_trans (Nat.mul_le_mul_right oct (by omega : _ ≤ keys.length)) hsz)
        simp only
        rw [e', Res.ok_bind]
        refine ⟨s', rfl, ?_⟩
        unfold frameEntries at h' ⊢
        rw [htake, hd]
        rw [← hl, List.take_length] at h'
        rw [← hl]
        simpa using h')
  rw [List.take_length] at hm
  exact ⟨m', e, hm⟩

end

/-- The place of a keypoint is its identifier. -/
def IdsArePlaces (keys : List NumKey) : Prop := ∀ (i : Nat) (k : NumKey), keys[i]? = some k → k.id = i

theorem ofNat_toNat64 {n : Nat} (h : n ≤ 2147483647) : (UInt64.ofNat n).toNat = n := by
  rw [UInt64.toNat_ofNat']
  omega

section
variable {f fp : NumKey → Option Bytes} {oct : Nat} {lk rk : List NumKey}

/-- Entries of a prefix and the keypoint of an entry. -/
theorem entry_key {f : NumKey → Option Bytes} {keys : List NumKey} (hid : IdsArePlaces keys) (hn : keys.length ≤ 2147483647)
    {j : Nat} {e : UInt64 × Bytes} (he : (frameEntries f keys)[j]? = some e) :
    ∃ (i : Nat) (k : NumKey), keys[i]? = some k ∧ f k = some e.2 ∧ e.1.toNat = i := by
  have := List.mem_of_getElem? he
  unfold frameEntries at this
  rw [List.mem_filterMap] at this
  obtain ⟨k, hk, hf⟩ := this
  obtain ⟨i, hi⟩ := List.getElem?_of_mem hk
  rw [Option.map_eq_some_iff] at hf
  obtain ⟨d, hd, rfl⟩ := hf
  refine ⟨i, k, hi, hd, ?_⟩
  have h1 := hid i k hi
  have h2 := (List.getElem?_eq_some_iff.mp hi).1
  simp only
  rw [h1, ofNat_toNat64 (by omega)]

/-- Entries are in the order of the keypoints. -/
theorem entries_pairwise {f : NumKey → Option Bytes} {keys : List NumKey} (hid : IdsArePlaces keys) (hn : keys.length ≤ 2147483647) :
    (frameEntries f keys).Pairwise fun e e' => e.1.toNat < e'.1.toNat := by
  unfold frameEntries
  rw [List.pairwise_filterMap, List.pairwise_iff_getElem]
  intro i j hi hj hij e he e' he'
  rw [Option.map_eq_some_iff] at he he'
  obtain ⟨d, _, rfl⟩ := he
  obtain ⟨d', _, rfl⟩ := he'
  have h1 := hid i _ (List.getElem?_eq_getElem hi)
  have h2 := hid j _ (List.getElem?_eq_getElem hj)
  simp only
  rw [h1, h2, ofNat_toNat64 (by omega), ofNat_toNat64 (by omega)]
  exact hij

theorem nearest_key (hid : IdsArePlaces rk) (hn : rk.length ≤ 2147483647) {d : Bytes} {j : Nat} {e : UInt64 × Bytes}
    (h : NearestAt (frameEntries fp rk) d j e) :
    ∃ kp, rk[e.1.toNat]? = some kp ∧ NearestKey fp rk d kp (hamming d e.2) := by
  obtain ⟨i, k, hi, hf, hie⟩ := entry_key hid hn h.1
  rw [hie]
  refine ⟨k, hi, i, e.2, hi, hf, rfl, ?_⟩
  intro j' k' d' hj' hd'
  have hmem : (UInt64.ofNat k'.id, d') ∈ frameEntries fp rk := by
    unfold frameEntries
    rw [List.mem_filterMap]
    exact ⟨k', List.mem_of_getElem? hj', by rw [hd']; rfl⟩
  obtain ⟨q, hq⟩ := List.getElem?_of_mem hmem
  have hmin := h.2 q _ hq
  refine ⟨hmin.1, fun hlt => hmin.2 ?_⟩
  have h1 := hid j' k' hj'
  have hj'' := (List.getElem?_eq_some_iff.mp hj').1
  obtain ⟨hj1, hj2⟩ := List.getElem?_eq_some_iff.mp h.1
  obtain ⟨hq1, hq2⟩ := List.getElem?_eq_some_iff.mp hq
  have hp := List.pairwise_iff_getElem.mp (entries_pairwise (f := fp) hid hn)
  by_contra hge
  have hval : (UInt64.ofNat k'.id).toNat = j' := by rw [h1, ofNat_toNat64 (by omega)]
  rcases Nat.lt_or_ge j q with hlt' | hge'
  · have := hp j q hj1 hq1 hlt'
    rw [hj2, hq2] at this
    simp only at this
    omega
  · have hjq : j = q := by omega
    subst hjq
    rw [hj2] at hq2
    rw [hq2] at hie
    simp only at hie
    omega

/-- What the search gives for a keypoint of the left view. -/
def stereoResult (rd : Rat → Rat) (f : NumKey → Option Bytes) (rk : List NumKey) (rm : DescMap) (k : NumKey) : Option (PMatch Rat) :=
  match f k with
  | none => none
  | some d =>
    match dmSearchNN rm d with
    | .ok r => (rk[r.1.toNat]?).bind fun kp => if (r.2 : Rat) < 70 then some (matchFromKeys rd k kp keySigma0 r.2 false) else none
    | _ => none

/-- One keypoint of the left view. -/
theorem stereoMatchBody_spec {rd : Rat → Rat} (hrd : FloatRound rd) (hidl : IdsArePlaces lk) (hidr : IdsArePlaces rk)
    (hnl : lk.length ≤ 2147483647) (hnr : rk.length ≤ 2147483647) {lm rm : DescMap} (hl : DmHolds lm oct (frameEntries f lk))
    (hr : DmHolds rm oct (frameEntries fp rk)) (ho : 0 < oct) (ho' : oct ≤ 1048576) (hszl : lk.length * oct ≤ 2147483647)
    (hszr : rk.length * oct ≤ 2147483647) (hne : ∃ k ∈ rk, (fp k).isSome) {j : Nat} {e : UInt64 × Bytes}
    (he : (frameEntries f lk)[j]? = some e) (acc : List (PMatch Rat)) :
    ∃ k, lk[e.1.toNat]? = some k ∧ f k = some e.2 ∧ MatchedAs rd f fp rk k (stereoResult rd f rk rm k) ∧
      stereoMatchBody rd lk rk lm rm j acc = .ok (acc ++ (stereoResult rd f rk rm k).toList) := by
  have hle : ∀ (g : NumKey → Option Bytes) (l : List NumKey), (frameEntries g l).length ≤ l.length :=
    fun g l => List.length_filterMap_le _ _
  obtain ⟨i, k, hi, hf, hie⟩ := entry_key hidl hnl he
  have hj := (List.getElem?_eq_some_iff.mp he).1
  have hjn : j * oct ≤ 2147483647 :=
    Nat.le_trans (Nat.mul_le_mul_right oct (Nat.le_of_lt (Nat.lt_of_lt_of_le hj (hle f lk)))) hszl
  refine ⟨k, by rw [hie]; exact hi, hf, ?_⟩
  obtain ⟨hid, p, hp, hread⟩ := c93_entry hl he hjn
  have hne' : frameEntries fp rk ≠ [] := by
    obtain ⟨k', hk', hs⟩ := hne
    obtain ⟨d', hd'⟩ := Option.isSome_iff_exists.mp hs
    apply List.ne_nil_of_mem (a := (UInt64.ofNat k'.id, d'))
    unfold frameEntries
    rw [List.mem_filterMap]
    exact ⟨k', hk', by rw [hd']; rfl⟩
  have hdl := hl.length_eq e (List.mem_of_getElem? he)
  obtain ⟨q, e', hs, hnear⟩ := c93_nearest hr e.2 hdl ho (by omega) hne'
    (Nat.le_trans (Nat.mul_le_mul_right oct (hle fp rk)) hszr)
  obtain ⟨kp, hkp, hnk⟩ := nearest_key hidr hnr hnear
  have hham := hamming_le e.2 e'.2
  have hrdc := hrd.exact (hamming e.2 e'.2) (by omega)
  have hres : stereoResult rd f rk rm k =
      if (hamming e.2 e'.2 : Rat) < 70 then some (matchFromKeys rd k kp keySigma0 (hamming e.2 e'.2) false) else none := by
    unfold stereoResult
    rw [hf]
    simp only [hs, hkp, Option.bind_some]
  unfold stereoMatchBody
  rw [hp, Res.ok_bind, hread, Res.ok_bind, hid, Res.ok_bind, hie, readAt_some hi, Res.ok_bind, hs, Res.ok_bind]
  simp only
  rw [readAt_some hkp, Res.ok_bind, hrdc, hres]
  unfold MatchedAs
  rw [hf]
  by_cases hc : (hamming e.2 e'.2 : Rat) < 70
  · rw [if_pos hc, if_pos hc]
    exact ⟨⟨kp, _, hnk, by exact_mod_cast hc, matchFromKeys_joins _ _ _ _ _⟩, rfl⟩
  · rw [if_neg hc, if_neg hc]
    refine ⟨⟨kp, _, hnk, ?_⟩, by simp⟩
    rw [not_lt] at hc
    exact_mod_cast hc

/-- C104. Two frames whose keypoints carry their places as identifiers: each keypoint of the left view with a descriptor is matched with
the first of the nearest keypoints of the right view if the distance is below 70, in the order of the left keypoints. -/
theorem c104_frames {rd : Rat → Rat} (hrd : FloatRound rd) (ext extp : NumKey → Res (Option Bytes)) (m mp : DescMap)
    (hidl : IdsArePlaces lk) (hidr : IdsArePlaces rk) (hext : ∀ k ∈ lk, ext k = .ok (f k)) (hextp : ∀ k ∈ rk, extp k = .ok (fp k))
    (hlen : ∀ k ∈ lk, ∀ d, f k = some d → d.length = oct) (hlenp : ∀ k ∈ rk, ∀ d, fp k = some d → d.length = oct)
    (ho : 0 < oct) (ho' : oct ≤ 1048576) (hszl : lk.length * oct ≤ 2147483647) (hszr : rk.length * oct ≤ 2147483647)
    (hne : ∃ k ∈ rk, (fp k).isSome) :
    ∃ lm rm g, extractFrame ext oct lk m = .ok lm ∧ extractFrame extp oct rk mp = .ok rm ∧
      stereoMatch rd lk rk lm rm = .ok (lk.filterMap g) ∧ ∀ k ∈ lk, MatchedAs rd f fp rk k (g k) := by
  have hnl : lk.length ≤ 2147483647 := Nat.le_trans (Nat.le_mul_of_pos_right _ ho) hszl
  have hnr : rk.length ≤ 2147483647 := Nat.le_trans (Nat.le_mul_of_pos_right _ ho) hszr
  obtain ⟨lm, el, hl⟩ := c104_extract m hext hlen hszl hnl
  obtain ⟨rm, er, hr⟩ := c104_extract mp hextp hlenp hszr hnr
  refine ⟨lm, rm, stereoResult rd f rk rm, el, er, ?_, ?_⟩
  · have hle : (frameEntries f lk).length ≤ lk.length := List.length_filterMap_le _ _
    unfold stereoMatch
    rw [hl.size (by omega), Res.ok_bind]
    obtain ⟨out, e, hout⟩ := forLoop_spec
      (fun j acc => acc = ((frameEntries f lk).take j).filterMap fun e => (lk[e.1.toNat]?).bind (stereoResult rd f rk rm))
      (n := (frameEntries f lk).length) (body := stereoMatchBody rd lk rk lm rm) (i0 := 0) (s := []) (Nat.zero_le _) (by simp) (by
        intro j acc _ hj hacc
        have he := List.getElem?_eq_getElem hj
        obtain ⟨k, hk, -, -, hb⟩ := stereoMatchBody_spec hrd hidl hidr hnl hnr hl hr ho ho' hszl hszr hne he acc
        refine ⟨_, hb, ?_⟩
        rw [filterMap_take_succ _ he, hk, Option.bind_some, hacc])
    rw [e, hout, List.take_length]
    congr 1
    unfold frameEntries
    rw [List.filterMap_filterMap]
    apply List.filterMap_congr
    intro k hk
    obtain ⟨i, hi⟩ := List.getElem?_of_mem hk
    cases hf : f k with
    | none => simp [stereoResult, hf]
    | some d =>
      have h1 := hidl i k hi
      have h2 := (List.getElem?_eq_some_iff.mp hi).1
      simp only [Option.map_some, Option.bind_some]
      rw [h1, ofNat_toNat64 (by omega), hi, Option.bind_some]
  · intro k hk
    cases hf : f k with
    | none => simp [MatchedAs, stereoResult, hf]
    | some d =>
      have hmem : (UInt64.ofNat k.id, d) ∈ frameEntries f lk := by
        unfold frameEntries
        rw [List.mem_filterMap]
        exact ⟨k, hk, by rw [hf]; rfl⟩
      obtain ⟨j, hj⟩ := List.getElem?_of_mem hmem
      obtain ⟨k', hk', -, hm, -⟩ := stereoMatchBody_spec hrd hidl hidr hnl hnr hl hr ho ho' hszl hszr hne hj []
      obtain ⟨i, hi⟩ := List.getElem?_of_mem hk
      have h1 := hidl i k hi
      have h2 := (List.getElem?_eq_some_iff.mp hi).1
      simp only at hk'
      rw [h1, ofNat_toNat64 (by omega), hi] at hk'
      injection hk' with hk'
      rw [hk']
      exact hm

/-- C104. If the left view has a descriptor and the right view has none, the behaviour is undefined. -/
theorem c104_none_right {rd : Rat → Rat} (ext extp : NumKey → Res (Option Bytes)) (m mp : DescMap) (hidl : IdsArePlaces lk)
    (hext : ∀ k ∈ lk, ext k = .ok (f k)) (hextp : ∀ k ∈ rk, extp k = .ok none)
    (hlen : ∀ k ∈ lk, ∀ d, f k = some d → d.length = oct) (ho : 0 < oct) (hszl : lk.length * oct ≤ 2147483647)
    (hszr : rk.length * oct ≤ 2147483647) (hne : ∃ k ∈ lk, (f k).isSome) :
    ∃ lm rm, extractFrame ext oct lk m = .ok lm ∧ extractFrame extp oct rk mp = .ok rm ∧ stereoMatch rd lk rk lm rm = .ub := by
  have hnl : lk.length ≤ 2147483647 := Nat.le_trans (Nat.le_mul_of_pos_right _ ho) hszl
  have hnr : rk.length ≤ 2147483647 := Nat.le_trans (Nat.le_mul_of_pos_right _ ho) hszr
  obtain ⟨lm, el, hl⟩ := c104_extract m hext hlen hszl hnl
  obtain ⟨rm, er, hr⟩ := c104_extract (f := fun _ => none) mp hextp (by simp) hszr hnr
  refine ⟨lm, rm, el, er, ?_⟩
  have hle : (frameEntries f lk).length ≤ lk.length := List.length_filterMap_le _ _
  obtain ⟨k', hk', hs⟩ := hne
  obtain ⟨d', hd'⟩ := Option.isSome_iff_exists.mp hs
  have hmem : (UInt64.ofNat k'.id, d') ∈ frameEntries f lk := by
    unfold frameEntries
    rw [List.mem_filterMap]
    exact ⟨k', hk', by rw [hd']; rfl⟩
  have hpos : 0 < (frameEntries f lk).length := List.length_pos_of_mem hmem
  have he := List.getElem?_eq_getElem hpos
  obtain ⟨i, k, hi, -, hie⟩ := entry_key hidl hnl he
  obtain ⟨hid, p, hp, hread⟩ := c93_entry hl he (by omega)
  have hnil : frameEntries (fun _ => none) rk = [] := by simp [frameEntries]
  rw [hnil] at hr
  unfold stereoMatch
  rw [hl.size (by omega), Res.ok_bind]
  apply forLoop_ub hpos
  unfold stereoMatchBody
  rw [hp, Res.ok_bind, hread, Res.ok_bind, hid, Res.ok_bind, hie, readAt_some hi, Res.ok_bind]
  have hdata := hr.data_eq
  simp only [List.map_nil, List.flatten_nil] at hdata
  unfold dmSearchNN
  rw [hr.size (by simp), Res.ok_bind, if_pos hdata]
  rfl

end

/-! ## Matching with a known homography -/

/-- C104. The search gives the first of the nearest keypoints if it is nearer than 3, otherwise -1. -/
theorem c104_search (rd sqrt : Rat → Rat) (x : Rat × Rat) (keys : List NumKey) :
    (searchAround rd sqrt (some x) keys = .ok (-1) ∧ ∀ k ∈ keys, 3 ≤ keyDist rd sqrt x k) ∨
    ∃ (j : Nat) (k : NumKey), searchAround rd sqrt (some x) keys = .ok (j : Int) ∧ NearPoint rd sqrt x keys j k := by
  obtain ⟨s, e, hs⟩ := forLoop_spec
    (fun i (s : Int × Rat) => (s = (-1, 3) ∧ ∀ (j : Nat) (k : NumKey), j < i → keys[j]? = some k → 3 ≤ keyDist rd sqrt x k) ∨
      ∃ (a : Nat) (k : NumKey), s = ((a : Int), keyDist rd sqrt x k) ∧ a < i ∧ keys[a]? = some k ∧ keyDist rd sqrt x k < 3 ∧
        ∀ (j : Nat) (k' : NumKey), j < i → keys[j]? = some k' →
          keyDist rd sqrt x k ≤ keyDist rd sqrt x k' ∧ (j < a → keyDist rd sqrt x k < keyDist rd sqrt x k'))
    (n := keys.length) (body := searchBody rd sqrt (some x) keys) (i0 := 0) (s := (-1, 3)) (Nat.zero_le _)
    (Or.inl ⟨rfl, fun j k hj _ => absurd hj (by omega)⟩) (by
      intro i s _ hi hs
      have hk := List.getElem?_eq_getElem hi
      have hd : sqrt ((rd (keys[i].xs * keys[i].scale) - x.1) * (rd (keys[i].xs * keys[i].scale) - x.1) +
          (rd (keys[i].ys * keys[i].scale) - x.2) * (rd (keys[i].ys * keys[i].scale) - x.2)) = keyDist rd sqrt x keys[i] := by
        unfold keyDist
        congr 1
        ring
      unfold searchBody
      rw [readAt_ok hi, Res.ok_bind]
      simp only
      rw [hd]
      rcases hs with ⟨rfl, hall⟩ | ⟨a, k, rfl, ha, hka, h3, hmin⟩
      · by_cases hlt : keyDist rd sqrt x keys[i] < 3
        · rw [if_pos hlt]
          refine ⟨_, rfl, Or.inr ⟨i, keys[i], rfl, by omega, hk, hlt, ?_⟩⟩
          intro j k' hj hk'
          by_cases hji : j = i
          · subst hji
            rw [hk] at hk'
            injection hk' with hk'
            rw [hk']
            exact ⟨le_refl _, fun h => absurd h (by omega)⟩
          · have := hall j k' (by omega) hk'
            exact ⟨le_of_lt (lt_of_lt_of_le hlt this), fun _ => lt_of_lt_of_le hlt this⟩
        · rw [if_neg hlt]
          refine ⟨_, rfl, Or.inl ⟨rfl, ?_⟩⟩
          intro j k' hj hk'
          by_cases hji : j = i
          · subst hji
            rw [hk] at hk'
            injection hk' with hk'
            rw [← hk']
            exact not_lt.mp hlt
          · exact hall j k' (by omega) hk'
      · by_cases hlt : keyDist rd sqrt x keys[i] < keyDist rd sqrt x k
        · rw [if_pos hlt]
          refine ⟨_, rfl, Or.inr ⟨i, keys[i], rfl, by omega, hk, lt_trans hlt h3, ?_⟩⟩
          intro j k' hj hk'
          by_cases hji : j = i
          · subst hji
            rw [hk] at hk'
            injection hk' with hk'
            rw [hk']
            exact ⟨le_refl _, fun h => absurd h (by omega)⟩
          · have := (hmin j k' (by omega) hk').1
            exact ⟨le_of_lt (lt_of_lt_of_le hlt this), fun _ => lt_of_lt_of_le hlt this⟩
        · rw [if_neg hlt]
          refine ⟨_, rfl, Or.inr ⟨a, k, rfl, by omega, hka, h3, ?_⟩⟩
          intro j k' hj hk'
          by_cases hji : j = i
          · subst hji
            rw [hk] at hk'
            injection hk' with hk'
            rw [← hk']
            exact ⟨not_lt.mp hlt, fun h => absurd h (by omega)⟩
          · exact hmin j k' (by omega) hk')
  unfold searchAround
  rw [e, Res.ok_bind]
  rcases hs with ⟨rfl, hall⟩ | ⟨a, k, rfl, ha, hka, h3, hmin⟩
  · refine Or.inl ⟨rfl, fun k hk => ?_⟩
    obtain ⟨j, hj⟩ := List.getElem?_of_mem hk
    exact hall j k (List.getElem?_eq_some_iff.mp hj).1 hj
  · exact Or.inr ⟨a, k, rfl, hka, h3, fun j k' hk' => hmin j k' (List.getElem?_eq_some_iff.mp hk').1 hk'⟩

theorem searchAround_none (rd sqrt : Rat → Rat) (keys : List NumKey) : searchAround rd sqrt none keys = .ok (-1) := by
  obtain ⟨s, e, hs⟩ := forLoop_spec (fun _ (s : Int × Rat) => s = (-1, 3)) (n := keys.length) (body := searchBody rd sqrt none keys)
    (i0 := 0) (s := (-1, 3)) (Nat.zero_le _) rfl (by
      intro i s _ hi hs
      refine ⟨s, ?_, hs⟩
      unfold searchBody
      rw [readAt_ok hi]
      rfl)
  unfold searchAround
  rw [e, hs]
  rfl

/-- What the search gives for a keypoint of the left view. -/
def guidedResult (rd sqrt : Rat → Rat) (h : M3 Rat) (rk : List NumKey) (k : NumKey) : Option (PMatch Rat) :=
  match searchAround rd sqrt (transferFwd h (rd (k.xs * k.scale), rd (k.ys * k.scale))).1 rk with
  | .ok (.ofNat j) => (rk[j]?).map fun kp => matchFromKeys rd k kp keySigma0 0 true
  | _ => none

theorem guided_step (rd sqrt : Rat → Rat) (h : M3 Rat) (rk : List NumKey) (k : NumKey) :
    GuidedAs rd sqrt h rk k (guidedResult rd sqrt h rk k) ∧
    ∀ (lk : List NumKey) (i : Nat) (acc : List (PMatch Rat)), lk[i]? = some k →
      guidedBody rd sqrt h lk rk i acc = .ok (acc ++ (guidedResult rd sqrt h rk k).toList) := by
  have hproj := fun q => transferFwd_eq_some h (rd (k.xs * k.scale), rd (k.ys * k.scale)) q
  unfold guidedResult guidedBody
  cases hx : (transferFwd h (rd (k.xs * k.scale), rd (k.ys * k.scale))).1 with
  | none =>
    rw [searchAround_none]
    refine ⟨?_, ?_⟩
    · intro q hq
      rw [← hproj, hx] at hq
      exact absurd hq (by simp)
    · intro lk i acc hk
      rw [readAt_some hk, Res.ok_bind, hx, searchAround_none, Res.ok_bind, if_neg (by omega)]
      simp
  | some x =>
    have hx' := (hproj x).mp hx
    rcases c104_search rd sqrt x rk with ⟨e, hall⟩ | ⟨j, kp, e, hn⟩
    · rw [e]
      refine ⟨?_, ?_⟩
      · intro q hq j k' hk'
        rw [← hproj, hx] at hq
        injection hq with hq
        rw [← hq]
        exact hall k' (List.mem_of_getElem? hk')
      · intro lk i acc hk
        rw [readAt_some hk, Res.ok_bind, hx, e, Res.ok_bind, if_neg (by omega)]
        simp
    · rw [e]
      have hj : rk[j]? = some kp := hn.1
      have hcast : (Int.ofNat j) = (j : Int) := rfl
      refine ⟨?_, ?_⟩
      · rw [← hcast]
        simp only [hj, Option.map_some]
        exact ⟨x, j, kp, hx', hn, matchFromKeys_joins _ _ _ _ _⟩
      · intro lk i acc hk
        rw [readAt_some hk, Res.ok_bind, hx, e, Res.ok_bind, if_pos (by omega), readI, if_pos (by omega), Int.toNat_natCast, readAt_some hj, Res.ok_bind, ← hcast]
        simp only [hj, Option.map_some]
        rfl

/-- C104. With a known homography each keypoint of the left view is matched with the first of the keypoints nearest to the place where the
homography takes it, if there is one nearer than 3. These matches follow those made before, which stay. -/
theorem c104_guided (rd sqrt : Rat → Rat) (h : M3 Rat) (lk rk : List NumKey) (corr : List (PMatch Rat)) :
    ∃ g, guidedMatch rd sqrt h lk rk corr = .ok (corr ++ lk.filterMap g) ∧ ∀ k ∈ lk, GuidedAs rd sqrt h rk k (g k) := by
  refine ⟨guidedResult rd sqrt h rk, ?_, fun k _ => (guided_step rd sqrt h rk k).1⟩
  obtain ⟨out, e, hout⟩ := forLoop_spec (fun i acc => acc = corr ++ (lk.take i).filterMap (guidedResult rd sqrt h rk))
    (n := lk.length) (body := guidedBody rd sqrt h lk rk) (i0 := 0) (s := corr) (Nat.zero_le _) (by simp) (by
      intro i acc _ hi hacc
      have hk := List.getElem?_eq_getElem hi
      refine ⟨_, (guided_step rd sqrt h rk lk[i]).2 lk i acc hk, ?_⟩
      rw [filterMap_take_succ _ hk, hacc, List.append_assoc])
  unfold guidedMatch
  rw [e, hout, List.take_length]

/-! ## Examples -/

/-- A keypoint at this place. -/
def stereoKey (x y : Rat) (id : Nat) : NumKey := ⟨0, 0, x, y, 0, 1, 1, 0, 0, id⟩

/-- Descriptors of two octets; the second keypoint has none. -/
def stereoDesc (k : NumKey) : Option Bytes := if k.id = 1 then none else some [UInt8.ofNat k.id, 7]

example : IdsArePlaces [stereoKey 1 2 0, stereoKey 3 4 1, stereoKey 5 6 2] ∧ (∃ k ∈ [stereoKey 1 2 0, stereoKey 3 4 1], (stereoDesc k).isSome) := by
  refine ⟨?_, stereoKey 1 2 0, by simp, by decide +kernel⟩
  intro i k h
  match i with
  | 0 => simp at h; rw [← h]; rfl
  | 1 => simp at h; rw [← h]; rfl
  | 2 => simp at h; rw [← h]; rfl
  | i + 3 => simp at h

example : (match extractFrame (fun k => .ok (stereoDesc k)) 2 [stereoKey 1 2 0, stereoKey 3 4 1, stereoKey 5 6 2] ⟨0, [], []⟩ with
    | .ok m =>
      (match stereoMatch id [stereoKey 1 2 0, stereoKey 3 4 1, stereoKey 5 6 2] [stereoKey 1 2 0, stereoKey 3 4 1, stereoKey 5 6 2] m m with
      | .ok l => decide (l.map (fun c => (c.x, c.xp, c.cost)) = [((1, 2), (1, 2), 0), ((5, 6), (5, 6), 0)])
      | _ => false)
    | _ => false) = true := by decide +kernel

example : (match guidedMatch id (fun x => x / 3) ⟨1, 0, 0, 0, 1, 0, 10, 0, 1⟩ [stereoKey 1 2 0, stereoKey 30 4 1]
      [stereoKey 12 2 0, stereoKey 11 3 1, stereoKey 11 1 2] [] with
    | .ok l => decide (l.map (fun c => (c.x, c.xp, c.inlier)) = [((1, 2), (12, 2), true)])
    | _ => false) = true := by decide +kernel

end Nx
