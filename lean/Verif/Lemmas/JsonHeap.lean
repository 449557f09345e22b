import Verif.Spec.JsonHeap
import Verif.Lemmas.MemBlock

/-! # Lemmas for C24: children lists in memory -/

namespace Nx

/-- The `right` links run through the list and end there. -/
def Rights (H : JHeap) (l : List Nat) : Prop :=
  ∀ k i, l[k]? = some i → ∃ N, H[i]? = some N ∧ N.right = l[k + 1]?

/-- The children of `p` are the nodes of `l`. -/
def Link (H : JHeap) (p : Nat) (l : List Nat) : Prop :=
  (∃ P, H[p]? = some P ∧ P.down = l.head? ∧ P.last = l.getLast?) ∧ Rights H l

theorem readAt_some {α : Type} {a : List α} {i : Nat} {x : α} (h : a[i]? = some x) : readAt a i = .ok x := by
  unfold readAt; rw [h]

theorem writeAt_some {α : Type} {a : List α} {i : Nat} {x y : α} (h : a[i]? = some x) :
    writeAt a i y = .ok (a.set i y) := by
  unfold writeAt; rw [if_pos (List.getElem?_eq_some_iff.mp h).1]

theorem getElem?_set_map {H : JHeap} {p : Nat} {P : HNode} (hP : H[p]? = some P) (f : HNode → HNode) (i : Nat) :
    (H.set p (f P))[i]? = (H[i]?).map (fun N => if i = p then f N else N) := by
  have hlt := (List.getElem?_eq_some_iff.mp hP).1
  rw [List.getElem?_set]
  by_cases h : p = i
  · subst h
    rw [if_pos rfl, if_pos hlt, hP]; simp
  · rw [if_neg h]
    have h' : ¬ i = p := fun e => h e.symm
    simp only [h', if_false]
    cases H[i]? <;> rfl

/-- The loop moves `last` to the end of the chain and changes nothing else. -/
theorem jhChase_ok : ∀ (rest : List Nat) (q fuel : Nat) (H : JHeap) (p : Nat) (P : HNode),
    rest.length < fuel → H[p]? = some P → P.last = some q → Rights H (q :: rest) →
    ∃ H', jhChase fuel H p = .ok H' ∧
      ∀ i : Nat, H'[i]? = (H[i]?).map (fun N => if i = p then { N with last := (q :: rest).getLast? } else N) := by
  intro rest
  induction rest with
  | nil =>
    intro q fuel H p P hf hP hl hr
    obtain ⟨Q, hQ, hQr⟩ := hr 0 q rfl
    refine ⟨H, ?_, ?_⟩
    · cases fuel with
      | zero => simp at hf
      | succ fuel =>
        unfold jhChase
        rw [readAt_some hP]
        simp only [Res.ok_bind]
        rw [hl]
        simp only
        rw [readAt_some hQ]
        simp only [Res.ok_bind]
        rw [hQr]
        rfl
    · intro i
      by_cases h : i = p
      · subst h
        rw [hP]
        cases P
        simp only at hl
        simp [hl]
      · simp only [h, if_false]
        cases H[i]? <;> rfl
  | cons r rest ih =>
    intro q fuel H p P hf hP hl hr
    obtain ⟨Q, hQ, hQr⟩ := hr 0 q rfl
    simp only [List.getElem?_cons_succ, List.getElem?_cons_zero] at hQr
    cases fuel with
    | zero => simp at hf
    | succ fuel =>
      have hset := getElem?_set_map hP (fun N => { N with last := some r })
      have hP' : (H.set p { P with last := some r })[p]? = some { P with last := some r } := by
        rw [hset p, hP]; simp
      have hr' : Rights (H.set p { P with last := some r }) (r :: rest) := by
        intro k i hk
        obtain ⟨N, hN, hNr⟩ := hr (k + 1) i (by simpa using hk)
        refine ⟨if i = p then { N with last := some r } else N, ?_, ?_⟩
        · rw [hset i, hN]; rfl
        · rw [List.getElem?_cons_succ] at hNr
          split
          · exact hNr
          · exact hNr
      obtain ⟨H', g1, g2⟩ := ih r fuel _ p _ (by simp at hf; omega) hP' rfl hr'
      refine ⟨H', ?_, ?_⟩
      · unfold jhChase
        rw [readAt_some hP]
        simp only [Res.ok_bind]
        rw [hl]
        simp only
        rw [readAt_some hQ]
        simp only [Res.ok_bind]
        rw [hQr]
        simp only
        rw [writeAt_some hP]
        simp only [Res.ok_bind]
        exact g1
      · intro i
        rw [g2 i, hset i]
        cases H[i]? with
        | none => rfl
        | some N =>
          simp only [Option.map_some]
          by_cases h : i = p
          · simp [h, List.getLast?_cons_cons]
          · simp [h]

/-- Effect of `nx_json_node_add_child` on all nodes: appending the chain `c :: cs`
to the children `l` of `p`. -/
theorem jhAddChild_ok {H : JHeap} {p c : Nat} {l cs : List Nat} (hl : Link H p l)
    (hcs : Rights H (c :: cs)) (hlen : cs.length ≤ H.length) (hdis : ∀ x ∈ c :: cs, x ∉ l) :
    ∃ H', jhAddChild H p c = .ok H' ∧
      ∀ i : Nat, H'[i]? = (H[i]?).map (fun N =>
        { N with
          right := if l.getLast? = some i then some c else N.right
          down := if i = p then (l ++ c :: cs).head? else N.down
          last := if i = p then (c :: cs).getLast? else N.last }) := by
  obtain ⟨⟨P, hP, hPd, hPl⟩, hr⟩ := hl
  unfold jhAddChild
  rw [readAt_some hP]
  simp only [Res.ok_bind]
  rw [hPl]
  cases hlast : l.getLast? with
  | none =>
    have : l = [] := List.getLast?_eq_none_iff.mp hlast
    subst this
    simp only
    rw [writeAt_some hP]
    simp only [Res.ok_bind]
    have hset := getElem?_set_map hP (fun N => { N with down := some c, last := some c })
    have hP' : (H.set p { P with down := some c, last := some c })[p]? =
        some { P with down := some c, last := some c } := by
      rw [hset p, hP]; simp
    have hcs' : Rights (H.set p { P with down := some c, last := some c }) (c :: cs) := by
      intro k i hk
      obtain ⟨N, hN, hNr⟩ := hcs k i hk
      refine ⟨if i = p then { N with down := some c, last := some c } else N, ?_, ?_⟩
      · rw [hset i, hN]; rfl
      · split
        · exact hNr
        · exact hNr
    obtain ⟨H', g1, g2⟩ := jhChase_ok cs c (List.length (H.set p { P with down := some c, last := some c }) + 2) _ p _ (by simp; omega) hP' rfl hcs'
    refine ⟨H', g1, ?_⟩
    intro i
    rw [g2 i, hset i]
    cases H[i]? with
    | none => rfl
    | some N =>
      simp only [Option.map_some]
      by_cases h : i = p
      · simp [h]
      · simp [h]
  | some q =>
    simp only
    obtain ⟨m, hm⟩ : ∃ m, l = m ++ [q] := List.getLast?_eq_some_iff.mp hlast
    obtain ⟨Q, hQ, hQr⟩ := hr m.length q (by rw [hm]; simp)
    rw [readAt_some hQ]
    simp only [Res.ok_bind]
    rw [writeAt_some hQ]
    simp only [Res.ok_bind]
    have hset := getElem?_set_map hQ (fun N => { N with right := some c })
    have hP' : (H.set q { Q with right := some c })[p]? =
        some (if p = q then { P with right := some c } else P) := by
      rw [hset p, hP]; rfl
    have hcs' : Rights (H.set q { Q with right := some c }) (q :: c :: cs) := by
      intro k i hk
      cases k with
      | zero =>
        simp only [List.getElem?_cons_zero, Option.some.injEq] at hk
        subst hk
        refine ⟨{ Q with right := some c }, ?_, ?_⟩
        · rw [hset q, hQ]; simp
        · simp
      | succ k =>
        rw [List.getElem?_cons_succ] at hk
        obtain ⟨N, hN, hNr⟩ := hcs k i hk
        have hne : i ≠ q := by
          intro e
          subst e
          refine hdis i (List.mem_of_getElem? hk) ?_
          rw [hm]; simp
        refine ⟨N, ?_, ?_⟩
        · rw [hset i, hN]; simp [hne]
        · rw [hNr]; simp
    have hPl' : (if p = q then { P with right := some c } else P).last = some q := by
      split
      · exact hPl.trans hlast
      · exact hPl.trans hlast
    obtain ⟨H', g1, g2⟩ := jhChase_ok (c :: cs) q (List.length (H.set q { Q with right := some c }) + 2) _ p _ (by simp; omega) hP' hPl' hcs'
    refine ⟨H', g1, ?_⟩
    intro i
    rw [g2 i, hset i]
    cases hHi : H[i]? with
    | none => rfl
    | some N =>
      simp only [Option.map_some, Option.some.injEq]
      have hd : ∀ hp : i = p, N.down = (l ++ c :: cs).head? := by
        intro hp
        subst hp
        rw [hP] at hHi
        cases hHi
        rw [hPd, hm]
        cases m <;> simp
      by_cases h : i = p
      · have := hd h
        by_cases h2 : q = i
        · simp [h, List.getLast?_cons_cons]
          simp_all
        · have h2' : ¬ i = q := fun e => h2 e.symm
          simp [h, List.getLast?_cons_cons]
          simp_all
      · by_cases h2 : q = i
        · simp [h, h2]
        · have h2' : ¬ i = q := fun e => h2 e.symm
          simp [h, h2, h2']

/-- The list consists of key nodes with the given texts, each followed by its value. -/
def Pairs (H : JHeap) : List Nat → List (Bytes × Nat) → Prop
  | [], [] => True
  | k :: v :: l, (name, w) :: m => (∃ K, H[k]? = some K ∧ K.text = some name) ∧ v = w ∧ Pairs H l m
  | _, _ => False

/-- What links the nodes in memory to the abstract state: `L i` are the children of
node `i`. The nodes in `X` are exempt from having no right sibling. -/
structure HInv (X : List Nat) (H : JHeap) (S : List SNode) (L : Nat → List Nat) : Prop where
  len : H.length = S.length
  node : ∀ i N, S[i]? = some N → ∃ M, H[i]? = some M ∧ M.type = N.type ∧ M.down = (L i).head? ∧
    M.last = (L i).getLast? ∧ (N.attached = false → i ∉ X → M.right = none)
  rights : ∀ i, Rights H (L i)
  nodup : ∀ i, (L i).Nodup
  disj : ∀ i j x, x ∈ L i → x ∈ L j → i = j
  att : ∀ i x, x ∈ L i → ∃ N, S[x]? = some N ∧ N.attached = true
  out : ∀ i, S.length ≤ i → L i = []
  arr : ∀ i N, S[i]? = some N → N.type = .array → L i = N.elems
  obj : ∀ i N, S[i]? = some N → N.type = .object → Pairs H (L i) N.members

theorem Pairs.mono {H H' : JHeap} (hH : ∀ (i : Nat) N, H[i]? = some N → ∃ N', H'[i]? = some N' ∧ N'.text = N.text) :
    ∀ (l : List Nat) (m : List (Bytes × Nat)), Pairs H l m → Pairs H' l m
  | [], [], _ => trivial
  | k :: v :: l, (name, w) :: m, h => by
    obtain ⟨⟨K, h1, h2⟩, h3, h4⟩ := h
    obtain ⟨K', g1, g2⟩ := hH k K h1
    exact ⟨⟨K', g1, g2.trans h2⟩, h3, Pairs.mono hH l m h4⟩
  | [], _ :: _, h => h.elim
  | [_], [], h => h.elim
  | [_], _ :: _, h => h.elim
  | _ :: _ :: _, [], h => h.elim

theorem Pairs.append {H : JHeap} {k v : Nat} {name : Bytes} (hk : ∃ K, H[k]? = some K ∧ K.text = some name) :
    ∀ (l : List Nat) (m : List (Bytes × Nat)), Pairs H l m → Pairs H (l ++ [k, v]) (m ++ [(name, v)])
  | [], [], _ => ⟨hk, rfl, trivial⟩
  | k' :: v' :: l, (name', w) :: m, h => by
    obtain ⟨h1, h3, h4⟩ := h
    exact ⟨h1, h3, Pairs.append hk l m h4⟩
  | [], _ :: _, h => h.elim
  | [_], [], h => h.elim
  | [_], _ :: _, h => h.elim
  | _ :: _ :: _, [], h => h.elim

/-- Adding a chain of nodes to a container. -/
theorem add_inv {H : JHeap} {S S' : List SNode} {L : Nat → List Nat} {p c : Nat} {cs : List Nat} {P : SNode}
    (h : HInv (c :: cs) H S L) (hP : S[p]? = some P)
    (hcs : Rights H (c :: cs)) (hlen : cs.length ≤ H.length) (hnd : (c :: cs).Nodup)
    (hun : ∀ x ∈ c :: cs, ∃ N, S[x]? = some N ∧ N.attached = false)
    (hS' : S'.length = S.length)
    (hnode : ∀ (i : Nat) N, S[i]? = some N → ∃ N', S'[i]? = some N' ∧ N'.type = N.type ∧
      (N'.attached = true ↔ N.attached = true ∨ i ∈ c :: cs) ∧
      (i ≠ p → N'.elems = N.elems ∧ N'.members = N.members))
    (harr : ∀ N', S'[p]? = some N' → N'.type = .array → N'.elems = L p ++ c :: cs)
    (hobj : ∀ N', S'[p]? = some N' → N'.type = .object → Pairs H (L p ++ c :: cs) N'.members) :
    ∃ H', jhAddChild H p c = .ok H' ∧
      HInv [] H' S' (fun i => if i = p then L p ++ c :: cs else L i) := by
  have hdis : ∀ i, ∀ x ∈ c :: cs, x ∉ L i := by
    intro i x hx hx'
    obtain ⟨N, h1, h2⟩ := hun x hx
    obtain ⟨N', h3, h4⟩ := h.att i x hx'
    rw [h1] at h3; cases h3
    rw [h2] at h4; cases h4
  have hplt : p < S.length := (List.getElem?_eq_some_iff.mp hP).1
  obtain ⟨M, hM, _, hMd, hMl, _⟩ := h.node p P hP
  obtain ⟨H', g1, g2⟩ := jhAddChild_ok ⟨⟨M, hM, hMd, hMl⟩, h.rights p⟩ hcs hlen (hdis p)
  refine ⟨H', g1, ?_⟩
  have hback : ∀ (i : Nat) N', S'[i]? = some N' → ∃ N, S[i]? = some N := by
    intro i N' hi
    have := (List.getElem?_eq_some_iff.mp hi).1
    exact ⟨S[i]'(by omega), List.getElem?_eq_getElem (by omega)⟩
  have htext : ∀ (i : Nat) N, H[i]? = some N → ∃ N', H'[i]? = some N' ∧ N'.text = N.text := by
    intro i N hi
    rw [g2 i, hi]
    exact ⟨_, rfl, rfl⟩
  refine ⟨?_, ?_, ?_, ?_, ?_, ?_, ?_, ?_, ?_⟩
  · -- len
    rw [hS', ← h.len]
    have key : ∀ n, n < List.length H' ↔ n < List.length H := by
      intro n
      have e : H'[n]? = none ↔ H[n]? = none := by rw [g2 n]; simp
      rw [List.getElem?_eq_none_iff, List.getElem?_eq_none_iff] at e
      omega
    have k1 := key (List.length H)
    have k2 := key (List.length H')
    omega
  · -- node
    intro i N' hi
    obtain ⟨N, hN⟩ := hback i N' hi
    obtain ⟨M, hM1, hM2, hM3, hM4, hM5⟩ := h.node i N hN
    obtain ⟨N'', k1, k2, k3, k4⟩ := hnode i N hN
    rw [hi] at k1; cases k1
    rw [g2 i, hM1]
    refine ⟨_, rfl, ?_, ?_, ?_, ?_⟩
    · exact hM2.trans k2.symm
    · simp only
      split
      · rfl
      · exact hM3
    · simp only
      split
      · rw [List.getLast?_append, List.getLast?_eq_some_getLast (List.cons_ne_nil c cs)]
        rfl
      · exact hM4
    · intro ha _
      have hna : ¬ (N.attached = true ∨ i ∈ c :: cs) := by
        rw [← k3, ha]; simp
      have hNf : N.attached = false := by
        cases hb : N.attached with
        | false => rfl
        | true => exact absurd (Or.inl hb) hna
      have hni : i ∉ c :: cs := fun e => hna (Or.inr e)
      simp only
      split
      · rename_i hlast
        obtain ⟨N2, h3, h4⟩ := h.att p i (List.mem_of_getLast? hlast)
        rw [hN] at h3; cases h3
        rw [hNf] at h4; cases h4
      · exact hM5 hNf hni
  · -- rights
    intro i k x hx
    by_cases hip : i = p
    · rw [if_pos hip] at hx
      simp only [if_pos hip]
      by_cases hk : k < (L p).length
      · rw [List.getElem?_append_left hk] at hx
        obtain ⟨N, hN, hNr⟩ := h.rights p k x hx
        rw [g2 x, hN]
        refine ⟨_, rfl, ?_⟩
        simp only
        by_cases hlast : (L p).getLast? = some x
        · rw [if_pos hlast]
          have hkl : k + 1 = (L p).length := by
            have h1 := hx
            rw [List.getLast?_eq_getElem?] at hlast
            have hl1 : (L p).length - 1 < (L p).length := by omega
            rw [List.getElem?_eq_getElem hk] at h1
            rw [List.getElem?_eq_getElem hl1] at hlast
            rw [Option.some.injEq] at h1 hlast
            rcases Nat.lt_or_ge k ((L p).length - 1) with hlt | hge
            · exact absurd (h1.trans hlast.symm) (List.pairwise_iff_getElem.mp (h.nodup p) _ _ hk hl1 hlt)
            · omega
          rw [List.getElem?_append_right (by omega), hkl]
          simp
        · rw [if_neg hlast, hNr]
          have hkl : k + 1 < (L p).length := by
            rcases Nat.lt_or_ge (k + 1) (L p).length with hlt | hge
            · exact hlt
            · exfalso
              apply hlast
              rw [List.getLast?_eq_getElem?, ← hx]
              congr 1; omega
          rw [List.getElem?_append_left hkl]
      · rw [List.getElem?_append_right (by omega)] at hx
        obtain ⟨N, hN, hNr⟩ := hcs _ x hx
        rw [g2 x, hN]
        refine ⟨_, rfl, ?_⟩
        simp only
        rw [if_neg, hNr, List.getElem?_append_right (by omega)]
        · congr 1; omega
        · intro e
          exact hdis p x (List.mem_of_getElem? hx) (List.mem_of_getLast? e)
    · rw [if_neg hip] at hx
      simp only [if_neg hip]
      obtain ⟨N, hN, hNr⟩ := h.rights i k x hx
      rw [g2 x, hN]
      refine ⟨_, rfl, ?_⟩
      simp only
      rw [if_neg, hNr]
      intro e
      exact hip (h.disj i p x (List.mem_of_getElem? hx) (List.mem_of_getLast? e))
  · -- nodup
    intro i
    split
    · rw [List.nodup_append]
      refine ⟨h.nodup p, hnd, ?_⟩
      intro a ha b hb e
      subst e
      exact hdis p a hb ha
    · exact h.nodup i
  · -- disj
    intro i j x hi hj
    by_cases h1 : i = p <;> by_cases h2 : j = p
    · rw [h1, h2]
    · rw [if_pos h1] at hi
      rw [if_neg h2] at hj
      rcases List.mem_append.mp hi with hi | hi
      · rw [h1]; exact h.disj p j x hi hj
      · exact absurd hj (hdis j x hi)
    · rw [if_neg h1] at hi
      rw [if_pos h2] at hj
      rcases List.mem_append.mp hj with hj | hj
      · rw [h2]; exact h.disj i p x hi hj
      · exact absurd hi (hdis i x hj)
    · rw [if_neg h1] at hi
      rw [if_neg h2] at hj
      exact h.disj i j x hi hj
  · -- att
    intro i x hx
    have hx' : (∃ j, x ∈ L j) ∨ x ∈ c :: cs := by
      split at hx
      · rcases List.mem_append.mp hx with hx | hx
        · exact Or.inl ⟨p, hx⟩
        · exact Or.inr hx
      · exact Or.inl ⟨i, hx⟩
    rcases hx' with ⟨j, hj⟩ | hc
    · obtain ⟨N, h1, h2⟩ := h.att j x hj
      obtain ⟨N', k1, _, k3, _⟩ := hnode x N h1
      exact ⟨N', k1, k3.mpr (Or.inl h2)⟩
    · obtain ⟨N, h1, h2⟩ := hun x hc
      obtain ⟨N', k1, _, k3, _⟩ := hnode x N h1
      exact ⟨N', k1, k3.mpr (Or.inr hc)⟩
  · -- out
    intro i hi
    rw [if_neg (by omega)]
    exact h.out i (by omega)
  · -- arr
    intro i N' hi hty
    split
    · rename_i hip
      subst hip
      exact (harr N' hi hty).symm
    · rename_i hip
      obtain ⟨N, hN⟩ := hback i N' hi
      obtain ⟨N'', k1, k2, k3, k4⟩ := hnode i N hN
      rw [hi] at k1; cases k1
      rw [(k4 hip).1]
      exact h.arr i N hN (k2.symm.trans hty)
  · -- obj
    intro i N' hi hty
    split
    · rename_i hip
      subst hip
      exact Pairs.mono htext _ _ (hobj N' hi hty)
    · rename_i hip
      obtain ⟨N, hN⟩ := hback i N' hi
      obtain ⟨N'', k1, k2, k3, k4⟩ := hnode i N hN
      rw [hi] at k1; cases k1
      rw [(k4 hip).2]
      exact Pairs.mono htext _ _ (h.obj i N hN (k2.symm.trans hty))

theorem getElem?_append_of_some {α : Type} {l m : List α} {i : Nat} {x : α} (h : l[i]? = some x) :
    (l ++ m)[i]? = some x := by
  rw [List.getElem?_append_left (List.getElem?_eq_some_iff.mp h).1]; exact h

theorem new_inv {H : JHeap} {S : List SNode} {L : Nat → List Nat} (h : HInv [] H S L) (type : JNT)
    (text : Option Bytes) : HInv [] (jhNew H type text) (S ++ [⟨type, [], [], false⟩]) L := by
  have hold : ∀ (i : Nat) N, H[i]? = some N → (jhNew H type text)[i]? = some N := by
    intro i N hi
    exact getElem?_append_of_some hi
  have hcase : ∀ (i : Nat) N, (S ++ [⟨type, [], [], false⟩])[i]? = some N →
      S[i]? = some N ∨ (i = S.length ∧ N = ⟨type, [], [], false⟩) := by
    intro i N hi
    rcases Nat.lt_or_ge i S.length with hlt | hge
    · rw [List.getElem?_append_left hlt] at hi
      exact Or.inl hi
    · rw [List.getElem?_append_right hge] at hi
      have : i - S.length = 0 := by
        have := (List.getElem?_eq_some_iff.mp hi).1
        simp only [List.length_singleton] at this
        omega
      rw [this] at hi
      simp only [List.getElem?_cons_zero, Option.some.injEq] at hi
      exact Or.inr ⟨by omega, hi.symm⟩
  refine ⟨by simp [jhNew, h.len], ?_, ?_, h.nodup, h.disj, ?_, ?_, ?_, ?_⟩
  · intro i N hi
    rcases hcase i N hi with hi | ⟨rfl, rfl⟩
    · obtain ⟨M, h1, h2⟩ := h.node i N hi
      exact ⟨M, hold i M h1, h2⟩
    · refine ⟨⟨type, text, none, none, none⟩, ?_, rfl, ?_, ?_, ?_⟩
      · unfold jhNew; rw [← h.len]; simp
      · rw [h.out _ (Nat.le_refl _)]; rfl
      · rw [h.out _ (Nat.le_refl _)]; rfl
      · intros; rfl
  · intro i k x hx
    obtain ⟨N, h1, h2⟩ := h.rights i k x hx
    exact ⟨N, hold x N h1, h2⟩
  · intro i x hx
    obtain ⟨N, h1, h2⟩ := h.att i x hx
    exact ⟨N, getElem?_append_of_some h1, h2⟩
  · intro i hi
    exact h.out i (by simp at hi; omega)
  · intro i N hi hty
    rcases hcase i N hi with hi | ⟨rfl, rfl⟩
    · exact h.arr i N hi hty
    · rw [h.out _ (Nat.le_refl _)]
  · intro i N hi hty
    rcases hcase i N hi with hi | ⟨rfl, rfl⟩
    · exact Pairs.mono (fun j M hj => ⟨M, hold j M hj, rfl⟩) _ _ (h.obj i N hi hty)
    · rw [h.out _ (Nat.le_refl _)]; trivial

theorem set_get_cases {α : Type} {l : List α} {i j : Nat} {x y z : α} (hi : l[i]? = some x) (hj : l[j]? = some y) :
    (l.set i z)[j]? = some (if j = i then z else y) := by
  have hlt := (List.getElem?_eq_some_iff.mp hi).1
  rw [List.getElem?_set]
  by_cases h : i = j
  · subst h; rw [if_pos rfl, if_pos hlt, if_pos rfl]
  · have h' : ¬ j = i := fun e => h e.symm
    rw [if_neg h, if_neg h']; exact hj

/-- Every allowed construction call succeeds and keeps the invariant. -/
theorem jhStep_inv {H : JHeap} {S S' : List SNode} {L : Nat → List Nat} (h : HInv [] H S L) (op : JhOp)
    (hs : sStep S op = some S') : ∃ H' L', jhStep H op = .ok H' ∧ HInv [] H' S' L' := by
  cases op with
  | new type text =>
    simp only [sStep, Option.some.injEq] at hs
    subst hs
    exact ⟨_, L, rfl, new_inv h type text⟩
  | arrayAdd a c =>
    simp only [sStep] at hs
    split at hs
    · rename_i A C hA hC
      split at hs
      · rename_i hc
        rw [set_get_cases hC hA] at hs
        simp only [Option.some.injEq] at hs
        subst hs
        obtain ⟨M, hM1, hM2, _⟩ := h.node a A hA
        obtain ⟨M', hM1', _, _, _, hM5'⟩ := h.node c C hC
        have hr : M'.right = none := hM5' hc.2 (by simp)
        have hX : HInv [c] H S L := ⟨h.len, fun i N hi => by
          obtain ⟨M, k1, k2, k3, k4, k5⟩ := h.node i N hi
          exact ⟨M, k1, k2, k3, k4, fun x _ => k5 x (by simp)⟩,
          h.rights, h.nodup, h.disj, h.att, h.out, h.arr, h.obj⟩
        have hget : ∀ (i : Nat) N, S[i]? = some N →
            ((S.set c { C with attached := true }).set a
              { (if a = c then { C with attached := true } else A) with
                elems := (if a = c then { C with attached := true } else A).elems ++ [c] })[i]? =
            some { N with attached := if i = c then true else N.attached
                          elems := if i = a then N.elems ++ [c] else N.elems } := by
          intro i N hi
          rw [set_get_cases (set_get_cases hC hA) (set_get_cases hC hi)]
          by_cases h1 : i = a
          · subst h1
            rw [hA] at hi; cases hi
            by_cases h2 : i = c
            · subst h2
              rw [hA] at hC; cases hC
              simp
            · simp [h2]
          · by_cases h2 : i = c
            · subst h2
              rw [hC] at hi; cases hi
              simp [h1]
            · simp [h1, h2]
        have hadd := add_inv (S' := (S.set c { C with attached := true }).set a
              { (if a = c then { C with attached := true } else A) with
                elems := (if a = c then { C with attached := true } else A).elems ++ [c] }) (cs := []) hX hA
          (by
            intro k i hk
            cases k with
            | zero =>
              simp only [List.getElem?_cons_zero, Option.some.injEq] at hk
              subst hk
              exact ⟨M', hM1', hr⟩
            | succ k => simp at hk)
          (by simp) (by simp)
          (by intro x hx; simp only [List.mem_singleton] at hx; subst hx; exact ⟨C, hC, hc.2⟩)
          (by simp)
          (by
            intro i N hi
            refine ⟨_, hget i N hi, rfl, ?_, ?_⟩
            · simp only [List.mem_singleton]
              by_cases h2 : i = c <;> simp [h2]
            · intro hia; simp [hia])
          (by
            intro N' hN' hty
            rw [hget a A hA] at hN'
            cases hN'
            simp only [if_pos]
            rw [h.arr a A hA hc.1])
          (by
            intro N' hN' hty
            rw [hget a A hA] at hN'
            cases hN'
            exact absurd (hc.1.symm.trans hty) (by simp))
        obtain ⟨H', g1, g2⟩ := hadd
        refine ⟨H', _, ?_, g2⟩
        unfold jhStep jhArrayAdd
        simp only
        rw [readAt_some hM1]
        simp only [Res.ok_bind]
        rw [if_pos (hM2.trans hc.1)]
        exact g1
      · cases hs
    · cases hs
  | objectAdd o name v =>
    simp only [sStep] at hs
    split at hs
    · rename_i O V hO hV
      split at hs
      · rename_i hc
        rw [set_get_cases hV hO] at hs
        simp only [Option.some.injEq] at hs
        subst hs
        obtain ⟨M, hM1, hM2, _⟩ := h.node o O hO
        have h1 := new_inv h .string (some name)
        have holt := (List.getElem?_eq_some_iff.mp hO).1
        have hvlt := (List.getElem?_eq_some_iff.mp hV).1
        have hK : (jhNew H .string (some name))[H.length]? = some ⟨.string, some name, none, none, none⟩ := by
          unfold jhNew; simp
        have hV1 : (S ++ [(⟨.string, [], [], false⟩ : SNode)])[v]? = some V := getElem?_append_of_some hV
        have hO1 : (S ++ [(⟨.string, [], [], false⟩ : SNode)])[o]? = some O := getElem?_append_of_some hO
        have hK1 : (S ++ [(⟨.string, [], [], false⟩ : SNode)])[H.length]? = some ⟨.string, [], [], false⟩ := by
          rw [h.len]; simp
        obtain ⟨M', hM1', _, _, _, hM5'⟩ := h1.node v V hV1
        have hr : M'.right = none := hM5' hc.2 (by simp)
        have hset := getElem?_set_map hK (fun N => { N with right := some v })
        have hX : HInv [H.length, v] ((jhNew H .string (some name)).set H.length
            ⟨.string, some name, some v, none, none⟩) (S ++ [⟨.string, [], [], false⟩]) L := by
          refine ⟨by rw [← h1.len]; simp, ?_, ?_, h1.nodup, h1.disj, h1.att, h1.out, h1.arr, ?_⟩
          · intro i N hi
            obtain ⟨M, k1, k2, k3, k4, k5⟩ := h1.node i N hi
            rw [hset i, k1]
            refine ⟨_, rfl, ?_, ?_, ?_, ?_⟩
            · split <;> exact k2
            · split <;> exact k3
            · split <;> exact k4
            · intro ha hi'
              simp only [List.mem_cons, List.not_mem_nil, or_false, not_or] at hi'
              simp only
              rw [if_neg hi'.1]
              exact k5 ha (by simp)
          · intro i k x hx
            obtain ⟨N, k1, k2⟩ := h1.rights i k x hx
            have hne : x ≠ H.length := by
              intro e
              obtain ⟨N', n1, n2⟩ := h1.att i x (List.mem_of_getElem? hx)
              rw [e, hK1] at n1
              cases n1; cases n2
            refine ⟨N, ?_, k2⟩
            rw [hset x, k1]; simp [hne]
          · intro i N hi hty
            refine Pairs.mono ?_ _ _ (h1.obj i N hi hty)
            intro j M hj
            rw [hset j, hj]
            refine ⟨_, rfl, ?_⟩
            split <;> rfl
        have hget : ∀ (i : Nat) N, (S ++ [(⟨.string, [], [], false⟩ : SNode)])[i]? = some N →
            ((S.set v { V with attached := true }).set o
              { (if o = v then { V with attached := true } else O) with
                members := (if o = v then { V with attached := true } else O).members ++ [(name, v)] }
              ++ [⟨.string, [], [], true⟩])[i]? =
            some { N with attached := if i ∈ [H.length, v] then true else N.attached
                          members := if i = o then N.members ++ [(name, v)] else N.members } := by
          intro i N hi
          rcases Nat.lt_or_ge i S.length with hlt | hge
          · rw [List.getElem?_append_left hlt] at hi
            rw [List.getElem?_append_left (by simpa using hlt)]
            rw [set_get_cases (set_get_cases hV hO) (set_get_cases hV hi)]
            have hne : ¬ i = H.length := by rw [h.len]; omega
            by_cases h1 : i = o
            · subst h1
              rw [hO] at hi; cases hi
              by_cases h2 : i = v
              · subst h2
                rw [hO] at hV; cases hV
                simp
              · simp [h2, hne]
            · by_cases h2 : i = v
              · subst h2
                rw [hV] at hi; cases hi
                simp [h1]
              · simp [h1, h2, hne]
          · have hi2 : i = S.length := by
              have := (List.getElem?_eq_some_iff.mp hi).1
              simp at this
              omega
            subst hi2
            have hno : ¬ S.length = o := by omega
            rw [List.getElem?_append_right (by simp)]
            rw [← h.len, hK1] at hi
            cases hi
            simp [h.len, hno]
        have hadd := add_inv (S' := (S.set v { V with attached := true }).set o
              { (if o = v then { V with attached := true } else O) with
                members := (if o = v then { V with attached := true } else O).members ++ [(name, v)] }
              ++ [⟨.string, [], [], true⟩]) hX hO1
          (by
            intro k i hk
            match k, hk with
            | 0, hk =>
              simp only [List.getElem?_cons_zero, Option.some.injEq] at hk
              subst hk
              refine ⟨⟨.string, some name, some v, none, none⟩, ?_, rfl⟩
              rw [hset, hK]; simp
            | 1, hk =>
              simp only [List.getElem?_cons_succ, List.getElem?_cons_zero, Option.some.injEq] at hk
              subst hk
              refine ⟨M', ?_, hr⟩
              have hne : ¬ v = H.length := by rw [h.len]; omega
              rw [hset, hM1']; simp [hne]
            | k + 2, hk => simp at hk)
          (by simp [jhNew])
          (by
            have hne : ¬ H.length = v := by rw [h.len]; omega
            simp [hne])
          (by
            intro x hx
            simp only [List.mem_cons, List.not_mem_nil, or_false] at hx
            rcases hx with rfl | rfl
            · exact ⟨_, hK1, rfl⟩
            · exact ⟨V, hV1, hc.2⟩)
          (by simp)
          (by
            intro i N hi
            refine ⟨_, hget i N hi, rfl, ?_, ?_⟩
            · simp only
              by_cases h2 : i ∈ [H.length, v] <;> simp [h2]
            · intro hia; simp [hia])
          (by
            intro N' hN' hty
            rw [hget o O hO1] at hN'
            cases hN'
            exact absurd (hc.1.symm.trans hty) (by simp))
          (by
            intro N' hN' hty
            rw [hget o O hO1] at hN'
            cases hN'
            simp only [if_pos]
            refine Pairs.append ?_ _ _ (hX.obj o O hO1 hc.1)
            refine ⟨⟨.string, some name, some v, none, none⟩, ?_, rfl⟩
            rw [hset, hK]; simp)
        obtain ⟨H', g1, g2⟩ := hadd
        refine ⟨H', _, ?_, g2⟩
        unfold jhStep jhObjectAdd
        simp only
        rw [readAt_some hM1]
        simp only [Res.ok_bind]
        rw [if_pos (hM2.trans hc.1), readAt_some hK]
        simp only [Res.ok_bind]
        rw [writeAt_some hK]
        simp only [Res.ok_bind]
        exact g1
      · cases hs
    · cases hs

theorem jhRun_inv : ∀ (ops : List JhOp) (H : JHeap) (S S' : List SNode) (L : Nat → List Nat),
    HInv [] H S L → sRun S ops = some S' → ∃ H' L', jhRun H ops = .ok H' ∧ HInv [] H' S' L'
  | [], H, S, S', L, h, hs => by
    simp only [sRun, Option.some.injEq] at hs
    subst hs
    exact ⟨H, L, rfl, h⟩
  | op :: ops, H, S, S', L, h, hs => by
    simp only [sRun] at hs
    cases h1 : sStep S op with
    | none => rw [h1] at hs; cases hs
    | some S1 =>
      rw [h1] at hs
      simp only [Option.bind_some] at hs
      obtain ⟨H1, L1, g1, g2⟩ := jhStep_inv h op h1
      obtain ⟨H', L', g3, g4⟩ := jhRun_inv ops H1 S1 S' L1 g2 hs
      refine ⟨H', L', ?_, g4⟩
      unfold jhRun
      rw [g1]
      exact g3

theorem nodup_lt_length : ∀ (n : Nat) (l : List Nat), l.Nodup → (∀ x ∈ l, x < n) → l.length ≤ n := by
  intro n
  induction n with
  | zero =>
    intro l _ h
    cases l with
    | nil => simp
    | cons x l => exact absurd (h x (by simp)) (by omega)
  | succ n ih =>
    intro l hl h
    by_cases hn : n ∈ l
    · have h1 := ih (l.erase n) (hl.erase n) (by
        intro x hx
        have := hl.mem_erase_iff.mp hx
        have := h x this.2
        omega)
      rw [List.length_erase_of_mem hn] at h1
      omega
    · have := ih l hl (by
        intro x hx
        have h1 := h x hx
        have : x ≠ n := fun e => hn (e ▸ hx)
        omega)
      omega

theorem Rights.tail {H : JHeap} {x : Nat} {l : List Nat} (h : Rights H (x :: l)) : Rights H l := by
  intro k i hk
  obtain ⟨N, h1, h2⟩ := h (k + 1) i (by simpa using hk)
  exact ⟨N, h1, by simpa using h2⟩

theorem jhCount_ok (H : JHeap) : ∀ (l : List Nat) (fuel : Nat), Rights H l → l.length < fuel →
    jhCount fuel H l.head? = .ok l.length := by
  intro l
  induction l with
  | nil =>
    intro fuel _ hf
    cases fuel with
    | zero => omega
    | succ fuel => rfl
  | cons x l ih =>
    intro fuel h hf
    cases fuel with
    | zero => omega
    | succ fuel =>
      obtain ⟨N, h1, h2⟩ := h 0 x rfl
      unfold jhCount
      simp only [List.head?_cons]
      rw [readAt_some h1]
      simp only [Res.ok_bind]
      have h3 : N.right = l.head? := by rw [h2]; cases l <;> rfl
      rw [h3, ih fuel h.tail (by simp at hf; omega)]
      rfl

theorem jhWalk_ok (H : JHeap) : ∀ (l : List Nat) (fuel : Nat) (position : Int), Rights H l → l.length < fuel →
    jhWalk fuel H l.head? position = .ok (l[position.toNat]?) := by
  intro l
  induction l with
  | nil =>
    intro fuel position _ hf
    cases fuel with
    | zero => omega
    | succ fuel => simp [jhWalk]
  | cons x l ih =>
    intro fuel position h hf
    cases fuel with
    | zero => omega
    | succ fuel =>
      obtain ⟨N, h1, h2⟩ := h 0 x rfl
      unfold jhWalk
      simp only [List.head?_cons]
      by_cases hp : position > 0
      · rw [if_pos hp, readAt_some h1]
        simp only [Res.ok_bind]
        have h3 : N.right = l.head? := by rw [h2]; cases l <;> rfl
        rw [h3, ih fuel (position - 1) h.tail (by simp at hf; omega)]
        have : position.toNat = (position - 1).toNat + 1 := by omega
        rw [this, List.getElem?_cons_succ]
      · rw [if_neg hp]
        have : position.toNat = 0 := by omega
        rw [this]; rfl

/-- The search returns the key node in front of the value of the first member with
the given name. -/
theorem jhFind_ok (H : JHeap) (name : Bytes) : ∀ (m : List (Bytes × Nat)) (l : List Nat) (fuel : Nat),
    Rights H l → Pairs H l m → l.length < fuel →
    (m.find? (fun e => e.1 = name) = none ∧ jhFind fuel H l.head? name = .ok none) ∨
    (∃ e k K, m.find? (fun e => e.1 = name) = some e ∧ jhFind fuel H l.head? name = .ok (some k) ∧
      H[k]? = some K ∧ K.right = some e.2 ∧ e.2 ∈ l)
  | [], [], fuel, _, _, hf => by
    left
    cases fuel with
    | zero => simp at hf
    | succ fuel => exact ⟨rfl, rfl⟩
  | [], [_], _, _, h, _ => h.elim
  | [], _ :: _ :: _, _, _, h, _ => h.elim
  | _ :: _, [], _, _, h, _ => h.elim
  | _ :: _, [_], _, _, h, _ => h.elim
  | (name', w) :: m, k :: v :: l, fuel, hr, hp, hf => by
    obtain ⟨⟨K, hK, hKt⟩, rfl, hp'⟩ := hp
    obtain ⟨K', h1, h2⟩ := hr 0 k rfl
    rw [hK] at h1; cases h1
    simp only [List.getElem?_cons_succ, List.getElem?_cons_zero] at h2
    cases fuel with
    | zero => simp at hf
    | succ fuel =>
      unfold jhFind
      simp only [List.head?_cons]
      rw [readAt_some hK]
      simp only [Res.ok_bind]
      rw [hKt]
      simp only
      by_cases hn : name' = name
      · right
        refine ⟨(name', v), k, K, ?_, ?_, hK, h2, by simp⟩
        · simp [hn]
        · rw [if_pos hn]; rfl
      · rw [if_neg hn, h2]
        simp only
        obtain ⟨V, g1, g2⟩ := hr 1 v rfl
        rw [readAt_some g1]
        simp only [Res.ok_bind]
        have h3 : V.right = l.head? := by rw [g2]; cases l <;> rfl
        rw [h3]
        have := jhFind_ok H name m l fuel hr.tail.tail hp' (by simp at hf; omega)
        rw [List.find?_cons_of_neg (by simpa using hn)]
        rcases this with this | ⟨e, k, K, f1, f2, f3, f4, f5⟩
        · exact Or.inl this
        · exact Or.inr ⟨e, k, K, f1, f2, f3, f4, by simp [f5]⟩

theorem Pairs.length {H : JHeap} : ∀ (l : List Nat) (m : List (Bytes × Nat)), Pairs H l m → l.length = 2 * m.length
  | [], [], _ => rfl
  | k :: v :: l, (name, w) :: m, h => by
    have := Pairs.length l m h.2.2
    simp only [List.length_cons]
    omega
  | [], _ :: _, h => h.elim
  | [_], [], h => h.elim
  | [_], _ :: _, h => h.elim
  | _ :: _ :: _, [], h => h.elim

theorem children_length {H : JHeap} {S : List SNode} {L : Nat → List Nat} (h : HInv [] H S L) (i : Nat) :
    (L i).length < H.length + 1 := by
  have := nodup_lt_length H.length (L i) (h.nodup i) (by
    intro x hx
    obtain ⟨N, h1, _⟩ := h.att i x hx
    have := (List.getElem?_eq_some_iff.mp h1).1
    rw [h.len]; exact this)
  omega

theorem jhFilter_ok {H : JHeap} {S : List SNode} {L : Nat → List Nat} (h : HInv [] H S L) (mask : Nat)
    (n : Option Nat) (hn : ∀ i, n = some i → ∃ N, S[i]? = some N) :
    jhFilter H n mask = .ok (n.bind (sFilter S mask)) := by
  cases n with
  | none => rfl
  | some i =>
    obtain ⟨N, hN⟩ := hn i rfl
    obtain ⟨M, hM, hMt, _⟩ := h.node i N hN
    unfold jhFilter
    simp only
    rw [readAt_some hM]
    simp [sFilter, hN, hMt]

end Nx
