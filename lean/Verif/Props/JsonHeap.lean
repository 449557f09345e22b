import Verif.Lemmas.JsonHeap

/-! # C24: JSON containers behave as sequences -/

namespace Nx

/-- C24. After any sequence of allowed construction calls (which all succeed), an
array holds exactly the nodes added to it, in order, and an object finds the value
added first under a key. -/
theorem c24_containers (ops : List JhOp) (S : List SNode) (h : sRun [] ops = some S) :
    ∃ H, jhRun [] ops = .ok H ∧ ∀ (i : Nat) N, S[i]? = some N →
      (N.type = .array →
        jhNChildren H i = .ok N.elems.length ∧
        ∀ (position : Int) mask,
          jhArrayGet H i position mask = .ok ((N.elems[position.toNat]?).bind (sFilter S mask))) ∧
      (N.type = .object →
        jhNChildren H i = .ok (2 * N.members.length) ∧
        ∀ name mask, jhObjectGet H i name mask =
          .ok (((N.members.find? (fun e => e.1 = name)).map (·.2)).bind (sFilter S mask))) := by
  have h0 : HInv [] [] [] (fun _ => []) := by
    refine ⟨rfl, ?_, ?_, ?_, ?_, ?_, ?_, ?_, ?_⟩ <;> simp [Rights]
  obtain ⟨H, L, h1, hi⟩ := jhRun_inv ops [] [] S _ h0 h
  refine ⟨H, h1, ?_⟩
  intro i N hN
  obtain ⟨M, hM, hMt, hMd, _⟩ := hi.node i N hN
  have hcount : jhNChildren H i = .ok (L i).length := by
    unfold jhNChildren
    rw [readAt_some hM]
    simp only [Res.ok_bind]
    rw [hMd]
    exact jhCount_ok H (L i) _ (hi.rights i) (children_length hi i)
  have hmem : ∀ x ∈ L i, ∃ N, S[x]? = some N := by
    intro x hx
    obtain ⟨N, h, _⟩ := hi.att i x hx
    exact ⟨N, h⟩
  constructor
  · intro ht
    have hL := hi.arr i N hN ht
    refine ⟨by rw [hcount, hL], ?_⟩
    intro position mask
    unfold jhArrayGet
    rw [readAt_some hM]
    simp only [Res.ok_bind]
    rw [if_neg (by rw [hMt, ht]; simp), hMd, ← hL]
    by_cases he : (L i).head? = none
    · rw [if_pos he]
      rw [List.head?_eq_none_iff] at he
      rw [he]; simp
    · rw [if_neg he, jhWalk_ok H (L i) _ position (hi.rights i) (children_length hi i)]
      simp only [Res.ok_bind]
      exact jhFilter_ok hi mask _ (fun j hj => hmem j (List.mem_of_getElem? hj))
  · intro ht
    have hP := hi.obj i N hN ht
    refine ⟨by rw [hcount, hP.length], ?_⟩
    intro name mask
    unfold jhObjectGet
    rw [readAt_some hM]
    simp only [Res.ok_bind]
    rw [if_neg (by rw [hMt, ht]; simp), hMd]
    have hf := jhFind_ok H name N.members (L i) (List.length H + 1) (hi.rights i) hP (children_length hi i)
    by_cases he : (L i).head? = none
    · rw [if_pos he]
      rw [List.head?_eq_none_iff] at he
      have : N.members = [] := by
        have := hP.length
        rw [he] at this
        simp only [List.length_nil] at this
        exact List.length_eq_zero_iff.mp (by omega)
      rw [this]; simp
    · rw [if_neg he]
      rcases hf with ⟨f1, f2⟩ | ⟨e, k, K, f1, f2, f3, f4, f5⟩
      · rw [f1, f2]; rfl
      · rw [f1, f2]
        simp only [Res.ok_bind]
        rw [readAt_some f3]
        simp only [Res.ok_bind, Option.map_some]
        rw [f4]
        refine jhFilter_ok hi mask _ ?_
        intro j hj
        cases hj
        exact hmem _ f5

/-- Two containers filled alternately: an array (node 0) and an object (node 1). -/
example : ∃ S, sRun [] [.new .array none, .new .object none, .new .tru none, .new .integer (some [53]),
      .objectAdd 1 [97] 2, .arrayAdd 0 3, .arrayAdd 0 1] = some S ∧
    S[0]? = some ⟨.array, [3, 1], [], false⟩ ∧ S[1]? = some ⟨.object, [], [([97], 2)], true⟩ := by
  refine ⟨_, rfl, ?_, ?_⟩ <;> decide

/-- The condition that a node is added only once is needed: adding it to a second
array also gives that array the later siblings of the node. -/
theorem c24_shared_node :
    (do
      let H ← jhRun [] [.new .array none, .new .array none, .new .tru none, .new .tru none,
        .arrayAdd 0 2, .arrayAdd 0 3, .arrayAdd 1 2]
      jhNChildren H 1) = .ok 2 := by
  decide +kernel

end Nx
