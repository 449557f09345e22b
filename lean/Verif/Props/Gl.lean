import Verif.Model.Gl

/-!
# C137: OpenGL objects made and released by the wrappers
-/

namespace Nx

/-! ### Buffers -/

/-- A new buffer holds the data, is bound to its target, and nothing else changes. -/
theorem c137_buffer_new {c : GlBufs} {name target usage : Nat} {size : Int} {data : List UInt8} (h0 : name ≠ 0)
    (hs : 0 ≤ size) (hd : size.toNat ≤ data.length) :
    ∃ c', glBufferNew c name target size (some data) usage = .ok (c', ⟨name, target, size, usage⟩) ∧
      c'.live = name :: c.live ∧ c'.store name = data.take size.toNat ∧ c'.bound target = name ∧
      (∀ n, n ≠ name → c'.store n = c.store n) ∧ ∀ t, t ≠ target → c'.bound t = c.bound t := by
  refine ⟨⟨name :: c.live, fun n => if n = name then data.take size.toNat else if n = name then [] else c.store n,
    fun t => if t = target then name else c.bound t⟩, ?_, rfl, ?_, ?_, ?_, ?_⟩
  · unfold glBufferNew glBufferAlloc
    simp only
    rw [if_neg h0, Res.ok_bind]
    unfold glBufferData glBindBuffer
    simp only [if_true]
    rw [if_neg (by omega), if_neg (by omega), Res.ok_bind]
    rfl
  · simp
  · simp
  · intro n hn
    simp [hn]
  · intro t ht
    simp [ht]

/-- Without data, or when the library gives no name, the program stops. -/
theorem c137_buffer_refused {c : GlBufs} {name target usage : Nat} {size : Int} {data : Option (List UInt8)} :
    glBufferNew c name target size data usage = .fatal ↔ data = none ∨ name = 0 := by
  cases data with
  | none => simp [glBufferNew]
  | some data =>
    unfold glBufferNew glBufferAlloc
    by_cases h : name = 0
    · simp only [h, if_true]
      exact ⟨fun _ => .inr trivial, fun _ => rfl⟩
    · simp only [if_neg h, Res.ok_bind]
      unfold glBufferData
      constructor
      · intro e
        split at e
        · cases e
        · split at e <;> cases e
      · rintro (e | e)
        · cases e
        · exact absurd e h

/-- A negative size is not reported: the buffer has no data. -/
theorem c137_buffer_negative {c : GlBufs} {name target usage : Nat} {size : Int} {data : List UInt8} (h0 : name ≠ 0)
    (hs : size < 0) : ∃ c', glBufferNew c name target size (some data) usage = .ok (c', ⟨name, target, size, usage⟩) ∧
      c'.live = name :: c.live ∧ c'.store name = [] := by
  refine ⟨⟨name :: c.live, fun n => if n = name then [] else c.store n, fun t => if t = target then name else c.bound t⟩,
    ?_, rfl, ?_⟩
  · unfold glBufferNew glBufferAlloc
    simp only
    rw [if_neg h0, Res.ok_bind]
    unfold glBufferData glBindBuffer
    simp only [if_true]
    rw [if_pos (.inr hs), Res.ok_bind]
    rfl
  · simp

/-- A buffer that is made and released leaves the other buffers as they were. -/
theorem c137_buffer_released {c c' : GlBufs} {b : GlBuffer} {name target usage : Nat} {size : Int} {data : Option (List UInt8)}
    (hf : name ∉ c.live) (hb : ∀ t, c.bound t ≠ name) (h : glBufferNew c name target size data usage = .ok (c', b)) :
    (glBufferFree c' (some b)).live = c.live ∧ (∀ n, n ≠ name → (glBufferFree c' (some b)).store n = c.store n) ∧
      (∀ t, (glBufferFree c' (some b)).bound t ≠ name ∨ name = 0) ∧
      ∀ t, t ≠ target → (glBufferFree c' (some b)).bound t = c.bound t := by
  cases data with
  | none => cases h
  | some data =>
    by_cases h0 : name = 0
    · unfold glBufferNew glBufferAlloc at h
      simp only [if_pos h0] at h
      cases h
    unfold glBufferNew glBufferAlloc at h
    simp only [if_neg h0, Res.ok_bind, Res.bind_eq_ok] at h
    obtain ⟨c1, e, h⟩ := h
    cases h
    have hl : c'.live = name :: c.live ∧ (∀ n, n ≠ name → c'.store n = c.store n) ∧
        ∀ t, c'.bound t = if t = target then name else c.bound t := by
      unfold glBufferData glBindBuffer at e
      simp only [if_true] at e
      split at e
      · cases e
        exact ⟨rfl, fun n hn => by simp [hn], fun t => rfl⟩
      · split at e
        · cases e
        · cases e
          exact ⟨rfl, fun n hn => by simp [hn], fun t => rfl⟩
    obtain ⟨h1, h2, h3⟩ := hl
    unfold glBufferFree glDeleteBuffer glBindBuffer
    simp only [if_neg h0]
    refine ⟨?_, ?_, ?_, ?_⟩
    · rw [h1, List.filter_cons_of_neg (by simp)]
      apply List.filter_eq_self.mpr
      intro a ha
      simp only [decide_eq_true_eq]
      rintro rfl
      exact hf ha
    · intro n hn
      rw [if_neg hn, h2 n hn]
    · intro t
      left
      by_cases hx : (if t = target then 0 else c'.bound t) = name
      · rw [if_pos hx]
        exact Ne.symm h0
      · rw [if_neg hx]
        exact hx
    · intro t ht
      rw [if_neg ht, h3 t, if_neg ht, if_neg (hb t)]

/-- Releasing a buffer while another one is bound to its target takes away the binding of the other one. -/
theorem c137_free_unbinds_other_false (c : GlBufs) (a b : GlBuffer) (ht : a.target = b.target) (hb : b.id ≠ 0)
    (hab : a.id ≠ b.id) (ha : a.id ≠ 0) (hl : b.id ∈ c.live) :
    ∃ c', glBufferBind c (some b) = .ok c' ∧ c'.bound b.target = b.id ∧ b.id ∈ (glBufferFree c' (some a)).live ∧
      (glBufferFree c' (some a)).bound b.target = 0 ∧ (glBufferFree c' (some a)).bound b.target ≠ b.id := by
  refine ⟨_, rfl, by simp [glBindBuffer], ?_, ?_, ?_⟩
  · unfold glBufferFree glDeleteBuffer glBindBuffer
    simp [ha, hl, Ne.symm hab]
  · unfold glBufferFree glDeleteBuffer glBindBuffer
    simp [ha, ht]
  · unfold glBufferFree glDeleteBuffer glBindBuffer
    simp [ha, ht, Ne.symm hb]

/-- Only that: the other buffers and the other binding points are kept. -/
theorem c137_free_partial {c : GlBufs} {b : GlBuffer} {t : Nat} (ht : t ≠ b.target) (hb : c.bound t ≠ b.id) :
    (glBufferFree c (some b)).bound t = c.bound t ∧ (∀ n, n ≠ b.id → (n ∈ (glBufferFree c (some b)).live ↔ n ∈ c.live)) ∧
      ∀ n, n ≠ b.id → (glBufferFree c (some b)).store n = c.store n := by
  unfold glBufferFree glDeleteBuffer glBindBuffer
  by_cases h0 : b.id = 0
  · simp [h0, ht]
  · simp only [if_neg h0]
    refine ⟨by rw [if_neg ht, if_neg hb], fun n hn => by simp [hn], fun n hn => by rw [if_neg hn]⟩

/-- A missing buffer is released without effect and cannot be bound. -/
theorem c137_null (c : GlBufs) : glBufferFree c none = c ∧ glBufferBind c none = .fatal := ⟨rfl, rfl⟩

/-! ### The log -/

theorem storeBytes_ok (bs : List UInt8) : ∀ (i : Nat) (mem : List UInt8), i + bs.length ≤ mem.length →
    ∃ mem', storeBytes bs i mem = .ok mem' ∧ mem'.length = mem.length ∧
      (∀ k, k < bs.length → mem'[i + k]? = bs[k]?) ∧ ∀ k, k < i → mem'[k]? = mem[k]? := by
  induction bs with
  | nil => exact fun i mem _ => ⟨mem, rfl, rfl, fun k hk => absurd hk (Nat.not_lt_zero _), fun k _ => rfl⟩
  | cons b bs ih =>
    intro i mem h
    simp only [List.length_cons] at h
    obtain ⟨mem', e, hl, h1, h2⟩ := ih (i + 1) (mem.set i b) (by rw [List.length_set]; omega)
    refine ⟨mem', ?_, by rw [hl, List.length_set], ?_, ?_⟩
    · rw [storeBytes, writeAt_ok _ (by omega)]
      exact e
    · intro k hk
      cases k with
      | zero =>
        rw [Nat.add_zero, h2 i (by omega), List.getElem?_set_self (by omega)]
        rfl
      | succ k =>
        rw [show i + (k + 1) = i + 1 + k by omega, h1 k (by simpa using hk)]
        rfl
    · intro k hk
      rw [h2 k (by omega), List.getElem?_set_ne (by omega)]

theorem cText_ok : ∀ {l : List UInt8} {i : Nat}, l[i]? = some 0 → ∃ t, cText l = .ok t ∧ t.length ≤ i ∧ t = l.take t.length ∧
    (∀ b ∈ t, b ≠ 0) ∧ l[t.length]? = some 0 := by
  intro l
  induction l with
  | nil => intro i h; simp at h
  | cons b bs ih =>
    intro i h
    by_cases hb : b = 0
    · exact ⟨[], by rw [cText, if_pos hb], Nat.zero_le _, rfl, by simp, by simp [hb]⟩
    · cases i with
      | zero => exact absurd (Option.some.inj h) hb
      | succ i =>
        obtain ⟨t, e, h1, h2, h3, h4⟩ := ih (i := i) (by simpa using h)
        refine ⟨b :: t, by rw [cText, if_neg hb, e]; rfl, by simpa using h1, ?_, ?_, ?_⟩
        · rw [List.length_cons, List.take_succ_cons, ← h2]
        · intro x hx
          rcases List.mem_cons.mp hx with rfl | hx
          · exact hb
          · exact h3 x hx
        · simpa using h4

/-- The message is a string inside the memory that was allocated, whatever length and bytes the library gives. -/
theorem c137_log_safe {d : GlDriver} (hd : d.Bounded) : ∃ t, glInfoLog d = .ok t ∧ (t.length : Int) ≤ max 0 (d.logLen - 1) ∧
    ∀ b ∈ t, b ≠ 0 := by
  unfold glInfoLog
  by_cases h : d.logLen > 1
  · rw [if_pos h]
    obtain ⟨m1, e1, l1, -, -⟩ := storeBytes_ok (d.logBytes d.logLen.toNat) 0 ((List.range d.logLen.toNat).map d.junk) (by
      have := hd d.logLen.toNat
      simp only [List.length_map, List.length_range]
      omega)
    simp only [List.length_map, List.length_range] at l1
    simp only
    rw [e1, Res.ok_bind, writeAt_ok _ (by omega), Res.ok_bind]
    obtain ⟨t, e, h1, -, h3, -⟩ := cText_ok (l := m1.set (d.logLen - 1).toNat 0) (i := (d.logLen - 1).toNat)
      (List.getElem?_set_self (by omega))
    exact ⟨t, e, by omega, h3⟩
  · rw [if_neg h]
    exact ⟨[], rfl, by simp; omega, by simp⟩

/-- A library that follows the specification, i.e. stores the log and a 0 and gives their length, has its log printed completely. -/
theorem c137_log_complete {d : GlDriver} {msg : List UInt8} (hm : ∀ b ∈ msg, b ≠ 0) (hl : d.logLen = msg.length + 1)
    (hb : d.logBytes (msg.length + 1) = msg ++ [0]) : glInfoLog d = .ok msg := by
  unfold glInfoLog
  have htn : d.logLen.toNat = msg.length + 1 := by omega
  have htm : (d.logLen - 1).toNat = msg.length := by omega
  by_cases h : d.logLen > 1
  · rw [if_pos h]
    simp only [htn, htm, hb]
    obtain ⟨m1, e1, l1, h1, -⟩ := storeBytes_ok (msg ++ [0]) 0 ((List.range (msg.length + 1)).map d.junk) (by simp)
    simp only [List.length_map, List.length_range] at l1
    have hm1 : m1 = msg ++ [0] := by
      apply List.ext_getElem?
      intro k
      by_cases hk : k < msg.length + 1
      · have := h1 k (by simpa using hk)
        rwa [Nat.zero_add] at this
      · rw [List.getElem?_eq_none (by omega), List.getElem?_eq_none (by simp; omega)]
    subst hm1
    rw [e1, Res.ok_bind, writeAt_ok _ (by omega), Res.ok_bind]
    have hset : (msg ++ [(0 : UInt8)]).set msg.length 0 = msg ++ [0] := by simp
    rw [hset]
    clear h1 l1 e1 hset hb htn htm hl h
    induction msg with
    | nil => rfl
    | cons b bs ih =>
      rw [List.cons_append, cText, if_neg (hm b (List.mem_cons_self ..)), ih fun x hx => hm x (List.mem_cons_of_mem _ hx)]
      rfl
  · rw [if_neg h]
    have : msg = [] := List.eq_nil_of_length_eq_zero (by omega)
    subst this
    rfl

/-! ### Shaders and programs -/

theorem shader_result {d : GlDriver} (hd : d.Bounded) (o : GlObjs) (kind : Nat) (src : List UInt8) :
    glShaderCreate d o kind src = if d.newShader o kind ≠ 0 ∧ d.compiles kind src = true then
      .ok (⟨⟨d.newShader o kind, kind, true, false⟩ :: o.shaders, o.programs⟩, d.newShader o kind) else .fatal := by
  unfold glShaderCreate
  obtain ⟨t, e, -⟩ := c137_log_safe hd
  by_cases h : d.newShader o kind = 0
  · simp [h]
  · by_cases hc : d.compiles kind src = true
    · simp [h, hc]
    · simp [h, hc, e]

theorem program_result {d : GlDriver} (hd : d.Bounded) (o : GlObjs) (v f : Nat) :
    glProgramCreate d o v f = if d.newProgram o ≠ 0 ∧ d.links o v f = true then
      .ok (⟨o.shaders, ⟨d.newProgram o, [v, f], true⟩ :: o.programs⟩, d.newProgram o) else .fatal := by
  unfold glProgramCreate
  obtain ⟨t, e, -⟩ := c137_log_safe hd
  by_cases h : d.newProgram o = 0
  · simp [h]
  · by_cases hc : d.links o v f = true
    · simp [h, hc]
    · simp [h, hc, e]

theorem validate_result {d : GlDriver} (hd : d.Bounded) (o : GlObjs) (p : Nat) :
    glProgramValidate d o p = if p ≠ 0 ∧ d.validates o p = true then .ok () else .fatal := by
  unfold glProgramValidate
  obtain ⟨t, e, -⟩ := c137_log_safe hd
  by_cases h : p = 0
  · simp [h]
  · by_cases hc : d.validates o p = true
    · simp [h, hc]
    · simp [h, hc, e]

/-- Making a program either succeeds or stops with a message: no behaviour of the library leads outside the memory. -/
theorem c137_program_safe {d : GlDriver} (hd : d.Bounded) (o : GlObjs) (vs fs : List UInt8) :
    glProgramFromShaders d o vs fs ≠ .ub := by
  unfold glProgramFromShaders
  rw [shader_result hd]
  split
  · rw [Res.ok_bind, shader_result hd]
    split
    · rw [Res.ok_bind, program_result hd]
      split
      · rw [Res.ok_bind, validate_result hd]
        split
        · rw [Res.ok_bind]
          intro h
          cases h
        · intro h
          cases h
      · intro h
        cases h
    · intro h
      cases h
  · intro h
    cases h

/-- The names that are given are new. -/
structure GlDriver.Fresh (d : GlDriver) : Prop where
  shader : ∀ o k s, s ∈ o.shaders → d.newShader o k ≠ s.name
  program : ∀ o p, p ∈ o.programs → d.newProgram o ≠ p.name

/-- The programs use shaders that exist. -/
def GlObjs.Closed (o : GlObjs) : Prop := ∀ p ∈ o.programs, ∀ s ∈ p.attached, ∃ x ∈ o.shaders, x.name = s

/-- A program that is made from sources has compiled, linked and been validated; its shaders are marked, so that deleting the
program deletes them too and leaves exactly the objects that were there before. -/
theorem c137_program_released {d : GlDriver} (hd : d.Bounded) (hfr : d.Fresh) {o o' : GlObjs} (ho : o.Closed) {vs fs : List UInt8}
    {p : Nat} (h : glProgramFromShaders d o vs fs = .ok (o', p)) :
    p ≠ 0 ∧ d.compiles glVertexShader vs = true ∧ d.compiles glFragmentShader fs = true ∧
      (∃ v f, o'.programs = ⟨p, [v, f], true⟩ :: o.programs ∧
        o'.shaders = ⟨f, glFragmentShader, true, true⟩ :: ⟨v, glVertexShader, true, true⟩ :: o.shaders) ∧
      glDeleteProgram o' p = o := by
  unfold glProgramFromShaders at h
  rw [shader_result hd] at h
  split at h
  rotate_left
  · cases h
  rename_i hv
  rw [Res.ok_bind, shader_result hd] at h
  split at h
  rotate_left
  · cases h
  rename_i hf
  rw [Res.ok_bind, program_result hd] at h
  split at h
  rotate_left
  · cases h
  rename_i hp
  rw [Res.ok_bind, validate_result hd] at h
  split at h
  rotate_left
  · cases h
  rw [Res.ok_bind] at h
  simp only at h hv hf hp
  have hvn : ∀ s ∈ o.shaders, d.newShader o glVertexShader ≠ s.name := fun s hs => hfr.shader o _ s hs
  have hfn := hfr.shader ⟨⟨d.newShader o glVertexShader, glVertexShader, true, false⟩ :: o.shaders, o.programs⟩ glFragmentShader
  have hpn := hfr.program ⟨⟨d.newShader ⟨⟨d.newShader o glVertexShader, glVertexShader, true, false⟩ :: o.shaders, o.programs⟩
    glFragmentShader, glFragmentShader, true, false⟩ :: ⟨d.newShader o glVertexShader, glVertexShader, true, false⟩ :: o.shaders,
    o.programs⟩
  generalize d.newShader o glVertexShader = v at *
  generalize d.newShader ⟨⟨v, glVertexShader, true, false⟩ :: o.shaders, o.programs⟩ glFragmentShader = f at *
  generalize d.newProgram ⟨⟨f, glFragmentShader, true, false⟩ :: ⟨v, glVertexShader, true, false⟩ :: o.shaders, o.programs⟩ = q at *
  have hfv : f ≠ v := hfn _ (List.mem_cons_self ..)
  have hfn' : ∀ s ∈ o.shaders, f ≠ s.name := fun s hs => hfn s (List.mem_cons_of_mem _ hs)
  have hmapv : ∀ n, (∀ s ∈ o.shaders, n ≠ s.name) →
      o.shaders.map (fun x => if x.name = n then { x with marked := true } else x) = o.shaders := by
    intro n hn
    rw [List.map_congr_left (g := id) (fun x hx => by rw [if_neg (Ne.symm (hn x hx))]; rfl), List.map_id]
  have hfin : o' = ⟨⟨f, glFragmentShader, true, true⟩ :: ⟨v, glVertexShader, true, true⟩ :: o.shaders,
      ⟨q, [v, f], true⟩ :: o.programs⟩ ∧ p = q := by
    unfold glDeleteShader at h
    simp [hfv, Ne.symm hfv, -List.map_map] at h
    rw [hmapv v hvn, hmapv f hfn'] at h
    exact ⟨h.1.symm, h.2.symm⟩
  obtain ⟨rfl, rfl⟩ := hfin
  refine ⟨hp.1, hv.2, hf.2, ⟨v, f, rfl, rfl⟩, ?_⟩
  have hrest : o.programs.filter (fun r => r.name ≠ p) = o.programs := by
    apply List.filter_eq_self.mpr
    intro r hr
    simpa using Ne.symm (hpn r hr)
  have hgone : o.programs.filter (fun r => r.name = p) = [] := by
    apply List.filter_eq_nil_iff.mpr
    intro r hr
    simpa using Ne.symm (hpn r hr)
  have hnot : ∀ n, (∀ s ∈ o.shaders, n ≠ s.name) → (o.programs.any fun r => r.attached.contains n) = false := by
    intro n hn
    rw [List.any_eq_false]
    intro r hr hc
    obtain ⟨x, hx, hxn⟩ := ho r hr n (by simpa using hc)
    exact hn x hx hxn.symm
  unfold glDeleteProgram
  obtain ⟨os, op⟩ := o
  simp only at *
  have hr2 : (GlProgram.mk p [v, f] true :: op).filter (fun r => r.name ≠ p) = op := by
    rw [List.filter_cons_of_neg (by simp), hrest]
  have hg2 : (GlProgram.mk p [v, f] true :: op).filter (fun r => r.name = p) = [⟨p, [v, f], true⟩] := by
    rw [List.filter_cons_of_pos (by simp), hgone]
  rw [hr2, hg2]
  congr 1
  rw [List.filter_cons_of_neg (by simp; simpa using hnot f hfn'), List.filter_cons_of_neg (by simp; simpa using hnot v hvn)]
  apply List.filter_eq_self.mpr
  intro x hx
  have h1 := hvn x hx
  have h2 := hfn' x hx
  simp [Ne.symm h1, Ne.symm h2]

theorem le_sum_of_mem' {x : Nat} : ∀ {l : List Nat}, x ∈ l → x ≤ l.sum
  | a :: l, h => by
    rw [List.sum_cons]
    rcases List.mem_cons.mp h with rfl | h
    · omega
    · have := le_sum_of_mem' h
      omega

/-- A library that meets the hypotheses and with which a program is made. -/
example : ∃ d : GlDriver, d.Bounded ∧ d.Fresh ∧ ∃ o p, glProgramFromShaders d ⟨[], []⟩ [1] [2] = .ok (o, p) := by
  refine ⟨⟨fun o _ => (o.shaders.map (·.name)).sum + 1, fun _ _ => true, fun o => (o.programs.map (·.name)).sum + 1,
    fun _ _ _ => true, fun _ _ => true, 0, fun _ => [], fun _ => 7⟩, fun n => by simp, ⟨?_, ?_⟩, _, _, rfl⟩
  · intro o k s hs
    have := le_sum_of_mem' (List.mem_map_of_mem (f := (·.name)) hs)
    simp only
    omega
  · intro o p hp
    have := le_sum_of_mem' (List.mem_map_of_mem (f := (·.name)) hp)
    simp only
    omega

end Nx
