import Verif.Core.Logic

/-!
# Program logic for completeness

`hw ext s` is the honest assignment: cells of this context hold the (evaluated) advice value, cells of
other contexts hold `ext`.  `Good tbl ext s`: the honest assignment satisfies everything recorded so far.
`Cmp tbl ext s m Q`: from a good state, `m` does not panic, and the new state is good again.
-/

set_option autoImplicit false
namespace H2
variable {p : ℕ} [Fact p.Prime]

/-- Honest value of row `i` of the context's column. -/
def valAt (s : Ctx p) (i : ℕ) : ZMod p := (s.advice[i]?.map Assigned.eval).getD 0

/-- `c` is a cell of this context. -/
def Own (s : Ctx p) (c : Cell) : Prop := c.typeId = s.typeId ∧ c.ctxId = s.ctxId

instance (s : Ctx p) (c : Cell) : Decidable (Own s c) := by unfold Own; infer_instance

/-- The honest assignment. -/
def hw (ext : Cell → ZMod p) (s : Ctx p) (c : Cell) : ZMod p :=
  if Own s c then valAt s c.offset else ext c

/-- A cell reference that is either foreign or points to an assigned row. -/
def Valid (s : Ctx p) (c : Cell) : Prop := Own s c → c.offset < s.advice.length

/-- `a` is an assigned value holding `x` whose cell exists and holds `x` in the honest assignment. -/
def Con (ext : Cell → ZMod p) (s : Ctx p) (a : AV p) (x : ZMod p) : Prop :=
  a.value = .trivial x ∧ ∃ c, a.cell = some c ∧ Valid s c ∧ hw ext s c = x

/-- As `Con`, but the value may be an unevaluated fraction. -/
def ConF (ext : Cell → ZMod p) (s : Ctx p) (a : AV p) (x : ZMod p) : Prop :=
  a.value.eval = x ∧ ∃ c, a.cell = some c ∧ Valid s c ∧ hw ext s c = x

/-- A quantum cell that evaluates to `x`. -/
def QCon (ext : Cell → ZMod p) (s : Ctx p) : QCell p → ZMod p → Prop
  | .existing a, x => Con ext s a x
  | .witness v, x => v = x
  | .witnessFraction _, _ => False
  | .constant c, x => c = x

/-- A quantum cell that evaluates to `x`, possibly a fraction. -/
def QConF (ext : Cell → ZMod p) (s : Ctx p) : QCell p → ZMod p → Prop
  | .existing a, x => ConF ext s a x
  | .witness v, x => v = x
  | .witnessFraction v, x => v.eval = x
  | .constant c, x => c = x

/-- The state of an honest prover's context. -/
structure Good (tbl : ZMod p → Prop) (ext : Cell → ZMod p) (s : Ctx p) : Prop where
  inv : Inv s
  fit : ∀ i : ℕ, s.selector[i]? = some true → i + 3 < s.advice.length
  sat : Sat tbl s (hw ext s)
  veq : ∀ e ∈ s.eqs, Valid s e.1 ∧ Valid s e.2
  vconst : ∀ e ∈ s.consts, Valid s e.2
  /-- a queued value is the value of its cell -/
  vlookup : ∀ a ∈ s.lookups, ∃ c, a.cell = some c ∧ Valid s c ∧ hw ext s c = a.value.eval
  zero : ∀ z, s.zeroCell = some z → Con ext s z 0

theorem Con.conF {ext : Cell → ZMod p} {s : Ctx p} {a : AV p} {x : ZMod p} (h : Con ext s a x) :
    ConF ext s a x := ⟨by simp [h.1, Assigned.eval], h.2⟩

theorem QCon.qConF {ext : Cell → ZMod p} {s : Ctx p} {q : QCell p} {x : ZMod p}
    (h : QCon ext s q x) : QConF ext s q x := by
  cases q
  · exact Con.conF h
  · exact h
  · exact h.elim
  · exact h

theorem Con.val {ext : Cell → ZMod p} {s : Ctx p} {a : AV p} {x : ZMod p} (h : Con ext s a x) :
    a.val? = some x := by simp [AV.val?, h.1]

theorem QCon.val {ext : Cell → ZMod p} {s : Ctx p} {q : QCell p} {x : ZMod p}
    (h : QCon ext s q x) : q.val? = some x := by
  cases q
  · exact Con.val h
  · exact congrArg some h
  · exact h.elim
  · exact congrArg some h

theorem QConF.eval {ext : Cell → ZMod p} {s : Ctx p} {q : QCell p} {x : ZMod p}
    (h : QConF ext s q x) : q.assigned.eval = x := by
  cases q
  · exact h.1
  · exact h
  · exact h
  · exact h

theorem Ext.own {s s' : Ctx p} (h : Ext s s') (c : Cell) : Own s' c ↔ Own s c := by
  simp [Own, h.typeId, h.ctxId]

theorem Ext.length {s s' : Ctx p} (h : Ext s s') : s.advice.length ≤ s'.advice.length :=
  h.advice.length_le

theorem Ext.valid {s s' : Ctx p} (h : Ext s s') {c : Cell} (k : Valid s c) : Valid s' c := by
  intro ho
  exact lt_of_lt_of_le (k ((h.own c).1 ho)) h.length

theorem Ext.valAt {s s' : Ctx p} (h : Ext s s') {i : ℕ} (hi : i < s.advice.length) :
    valAt s' i = valAt s i := by
  obtain ⟨t, ht⟩ := h.advice
  simp only [H2.valAt, ← ht, List.getElem?_append_left hi]

theorem Ext.hw {s s' : Ctx p} (h : Ext s s') (ext : Cell → ZMod p) {c : Cell} (k : Valid s c) :
    hw ext s' c = hw ext s c := by
  simp only [H2.hw, h.own]
  split
  · exact h.valAt (k (by assumption))
  · rfl

theorem Con.mono {ext : Cell → ZMod p} {s s' : Ctx p} {a : AV p} {x : ZMod p} (h : Con ext s a x)
    (e : Ext s s') : Con ext s' a x := by
  obtain ⟨h1, c, h2, h3, h4⟩ := h
  exact ⟨h1, c, h2, e.valid h3, (e.hw ext h3).trans h4⟩

theorem ConF.mono {ext : Cell → ZMod p} {s s' : Ctx p} {a : AV p} {x : ZMod p} (h : ConF ext s a x)
    (e : Ext s s') : ConF ext s' a x := by
  obtain ⟨h1, c, h2, h3, h4⟩ := h
  exact ⟨h1, c, h2, e.valid h3, (e.hw ext h3).trans h4⟩

theorem QCon.mono {ext : Cell → ZMod p} {s s' : Ctx p} {q : QCell p} {x : ZMod p}
    (h : QCon ext s q x) (e : Ext s s') : QCon ext s' q x := by
  cases q
  · exact Con.mono h e
  · exact h
  · exact h.elim
  · exact h

theorem QConF.mono {ext : Cell → ZMod p} {s s' : Ctx p} {q : QCell p} {x : ZMod p}
    (h : QConF ext s q x) (e : Ext s s') : QConF ext s' q x := by
  cases q
  · exact ConF.mono h e
  · exact h
  · exact h
  · exact h

theorem Con.at {ext : Cell → ZMod p} {s : Ctx p} {a : AV p} {x : ZMod p} (h : Con ext s a x) :
    at' (hw ext s) a = x := by
  obtain ⟨_, c, h2, _, h4⟩ := h
  simpa [at', h2] using h4

/-- Completeness triple. -/
def Cmp {α : Type} (tbl : ZMod p → Prop) (ext : Cell → ZMod p) (s : Ctx p) (m : M p α)
    (Q : α → Ctx p → Prop) : Prop :=
  Good tbl ext s → ∃ r s', m s = some (r, s') ∧ Good tbl ext s' ∧ Ext s s' ∧ Q r s'

section
variable {α β : Type} {tbl : ZMod p → Prop} {ext : Cell → ZMod p} {s : Ctx p}

theorem Cmp.bind {m : M p α} {f : α → M p β} {Q : α → Ctx p → Prop} {R : β → Ctx p → Prop}
    (h : Cmp tbl ext s m Q)
    (k : ∀ a s1, Ext s s1 → Q a s1 → Cmp tbl ext s1 (f a) R) : Cmp tbl ext s (m >>= f) R := by
  intro hg
  obtain ⟨a, s1, h1, g1, e1, q1⟩ := h hg
  obtain ⟨r, s2, h2, g2, e2, q2⟩ := k a s1 e1 q1 g1
  exact ⟨r, s2, bind_some.2 ⟨a, s1, h1, h2⟩, g2, e1.trans e2, q2⟩

theorem Cmp.pure {a : α} {Q : α → Ctx p → Prop} (h : Q a s) :
    Cmp tbl ext s (pure a : M p α) Q :=
  fun hg => ⟨a, s, rfl, hg, Ext.refl _, h⟩

theorem Cmp.weaken {m : M p α} {Q R : α → Ctx p → Prop} (h : Cmp tbl ext s m Q)
    (k : ∀ r s', Q r s' → R r s') : Cmp tbl ext s m R := by
  intro hg
  obtain ⟨a, s1, h1, g1, e1, q1⟩ := h hg
  exact ⟨a, s1, h1, g1, e1, k _ _ q1⟩

theorem Cmp.weakenE {m : M p α} {Q R : α → Ctx p → Prop} (h : Cmp tbl ext s m Q)
    (k : ∀ r s', Ext s s' → Q r s' → R r s') : Cmp tbl ext s m R := by
  intro hg
  obtain ⟨a, s1, h1, g1, e1, q1⟩ := h hg
  exact ⟨a, s1, h1, g1, e1, k _ _ e1 q1⟩

theorem Cmp.unwrap {o : Option α} {a : α} (ho : o = some a) {f : α → M p β} {R : β → Ctx p → Prop}
    (k : Cmp tbl ext s (f a) R) : Cmp tbl ext s (H2.unwrap o >>= f) R := by
  subst ho
  exact k

theorem unwrap_cmp {o : Option α} {a : α} (ho : o = some a) :
    Cmp tbl ext s (unwrap o : M p α) (fun r s' => r = a ∧ s' = s) := by
  subst ho
  exact fun hg => ⟨a, s, rfl, hg, Ext.refl _, rfl, rfl⟩

theorem Cmp.assert {c : Bool} (hc : c = true) {f : Unit → M p β} {R : β → Ctx p → Prop}
    (k : Cmp tbl ext s (f ()) R) : Cmp tbl ext s (assertM c >>= f) R := by
  subst hc
  exact k

theorem getWgo_bind_cmp {f : Bool → M p α} {Q : α → Ctx p → Prop}
    (h : Cmp tbl ext s (f false) Q) : Cmp tbl ext s (getWgo >>= f) Q := by
  intro hg
  have : (getWgo >>= f) s = f false s := by simp [getWgo, hg.inv.wgo]
  rw [this]
  exact h hg

/-- Extending the advice column (and the constraint lists with facts that hold) keeps a state good. -/
theorem Good.extend {s s' : Ctx p} (hg : Good tbl ext s) (hi : Inv s') (e : Ext s s')
    (fit : ∀ i : ℕ, s'.selector[i]? = some true → i + 3 < s'.advice.length)
    (gate : ∀ i : ℕ, s'.selector[i]? = some true → s.selector[i]? = some true ∨
      valAt s' i + valAt s' (i+1) * valAt s' (i+2) = valAt s' (i+3))
    (eq : ∀ e ∈ s'.eqs, e ∈ s.eqs ∨ Valid s' e.1 ∧ Valid s' e.2 ∧ hw ext s' e.1 = hw ext s' e.2)
    (const : ∀ e ∈ s'.consts, e ∈ s.consts ∨ Valid s' e.2 ∧ hw ext s' e.2 = e.1)
    (lookup : ∀ a ∈ s'.lookups, a ∈ s.lookups ∨
      ∃ c, a.cell = some c ∧ Valid s' c ∧ hw ext s' c = a.value.eval ∧ tbl (hw ext s' c))
    (zero : ∀ z, s'.zeroCell = some z → s.zeroCell = some z ∨ Con ext s' z 0) :
    Good tbl ext s' := by
  refine ⟨hi, fit, ⟨?_, ?_, ?_, ?_⟩, ?_, ?_, ?_, ?_⟩
  · intro i h
    have hv : ∀ j, hw ext s' (s'.cellAt j) = valAt s' j := by
      intro j; simp [hw, Own, Ctx.cellAt]
    simp only [GateAt, hv]
    rcases gate i h with h' | h'
    · have hf := hg.fit i h'
      have hv' : ∀ j, hw ext s (s.cellAt j) = valAt s j := by
        intro j; simp [hw, Own, Ctx.cellAt]
      have := hg.sat.gate i h'
      simp only [GateAt, hv'] at this
      rw [e.valAt (by omega), e.valAt (by omega), e.valAt (by omega), e.valAt (by omega)]
      exact this
    · exact h'
  · intro x hx
    rcases eq x hx with h | h
    · have := hg.veq x h
      rw [e.hw ext this.1, e.hw ext this.2]
      exact hg.sat.eq x h
    · exact h.2.2
  · intro x hx
    rcases const x hx with h | h
    · rw [e.hw ext (hg.vconst x h)]
      exact hg.sat.const x h
    · exact h.2
  · intro x hx
    rcases lookup x hx with h | h
    · obtain ⟨c, hc, hv, -⟩ := hg.vlookup x h
      have := hg.sat.lookup x h
      simp only [at', hc] at this ⊢
      rwa [e.hw ext hv]
    · obtain ⟨c, hc, _, _, ht⟩ := h
      simpa only [at', hc] using ht
  · intro x hx
    rcases eq x hx with h | h
    · exact ⟨e.valid (hg.veq x h).1, e.valid (hg.veq x h).2⟩
    · exact ⟨h.1, h.2.1⟩
  · intro x hx
    rcases const x hx with h | h
    · exact e.valid (hg.vconst x h)
    · exact h.1
  · intro x hx
    rcases lookup x hx with h | h
    · obtain ⟨c, hc, hv, hx⟩ := hg.vlookup x h
      exact ⟨c, hc, e.valid hv, (e.hw ext hv).trans hx⟩
    · obtain ⟨c, hc, hv, hx, _⟩ := h
      exact ⟨c, hc, hv, hx⟩
  · intro z hz
    rcases zero z hz with h | h
    · exact (hg.zero z h).mono e
    · exact h

theorem hw_cellAt (s : Ctx p) (j : ℕ) : hw ext s (s.cellAt j) = valAt s j := by
  simp [hw, Own, Ctx.cellAt]

theorem valid_cellAt {s : Ctx p} {j : ℕ} (h : j < s.advice.length) : Valid s (s.cellAt j) :=
  fun _ => h

theorem assignCell_cmp {q : QCell p} {x : ZMod p} (hq : QConF ext s q x) (hg : Good tbl ext s) :
    ∃ s', assignCell q s = some ((), s') ∧ Good tbl ext s' ∧ Ext s s' ∧
      s'.advice = s.advice ++ [q.assigned] ∧ s'.selector = s.selector := by
  have key : ∀ s', assignCell q s = some ((), s') →
      (∀ e ∈ s'.eqs, e ∈ s.eqs ∨ Valid s' e.1 ∧ Valid s' e.2 ∧ hw ext s' e.1 = hw ext s' e.2) →
      (∀ e ∈ s'.consts, e ∈ s.consts ∨ Valid s' e.2 ∧ hw ext s' e.2 = e.1) →
      s'.lookups = s.lookups → s'.zeroCell = s.zeroCell →
      ∃ s', assignCell q s = some ((), s') ∧ Good tbl ext s' ∧ Ext s s' ∧
      s'.advice = s.advice ++ [q.assigned] ∧ s'.selector = s.selector := by
    intro s' h heq hc hl hz
    obtain ⟨i1, e1, a1, se1, -⟩ := assignCell_spec (tbl := tbl) hg.inv h
    refine ⟨s', h, hg.extend i1 e1 ?_ ?_ heq hc ?_ ?_, e1, a1, se1⟩
    · intro i hi
      rw [se1] at hi
      have := hg.fit i hi
      simp [a1]; omega
    · intro i hi
      rw [se1] at hi
      exact Or.inl hi
    · intro a ha; rw [hl] at ha; exact Or.inl ha
    · intro z hz'; rw [hz] at hz'; exact Or.inl hz'
  have hnew : ∀ s' : Ctx p, Ext s s' → s'.advice = s.advice ++ [q.assigned] →
      Valid s' (s.cellAt s.advice.length) ∧ hw ext s' (s.cellAt s.advice.length) = x := by
    intro s' e1 a1
    rw [← e1.cellAt]
    refine ⟨valid_cellAt (by simp [a1]), ?_⟩
    rw [hw_cellAt]
    simp [valAt, a1, hq.eval]
  cases q with
  | existing a =>
    obtain ⟨h1, c, hc, hv, hx⟩ := hq
    have hr : assignCell (.existing a) s = some ((),
        { s with advice := s.advice ++ [a.value], eqs := s.eqs ++ [(s.cellAt s.advice.length, c)] }) := by
      simp [assignCell, hg.inv.wgo, hc]
    obtain ⟨i1, e1, a1, se1, -⟩ := assignCell_spec (tbl := tbl) hg.inv hr
    refine key _ hr ?_ (fun _ h => Or.inl h) rfl rfl
    intro e he
    simp only [List.mem_append, List.mem_singleton] at he
    rcases he with he | rfl
    · exact Or.inl he
    · right
      obtain ⟨k1, k2⟩ := hnew _ e1 a1
      refine ⟨k1, e1.valid hv, ?_⟩
      rw [e1.hw ext hv, hx]; exact k2
  | witness v => exact key _ rfl (fun _ h => Or.inl h) (fun _ h => Or.inl h) rfl rfl
  | witnessFraction v => exact key _ rfl (fun _ h => Or.inl h) (fun _ h => Or.inl h) rfl rfl
  | constant c =>
    have hr : assignCell (.constant c) s = some ((),
        { s with advice := s.advice ++ [.trivial c], consts := s.consts ++ [(c, s.cellAt s.advice.length)] }) := by
      simp [assignCell, hg.inv.wgo]
    obtain ⟨i1, e1, a1, se1, -⟩ := assignCell_spec (tbl := tbl) hg.inv hr
    refine key _ hr (fun _ h => Or.inl h) ?_ rfl rfl
    intro e he
    simp only [List.mem_append, List.mem_singleton] at he
    rcases he with he | rfl
    · exact Or.inl he
    · right
      obtain ⟨k1, k2⟩ := hnew _ e1 a1
      exact ⟨k1, k2.trans (show c = x from hq).symm⟩

/-- `QsCon s qs vs`: the quantum cells `qs` evaluate to `vs`. -/
def QsCon (ext : Cell → ZMod p) (s : Ctx p) (qs : List (QCell p)) (vs : List (ZMod p)) : Prop :=
  List.Forall₂ (QConF ext s) qs vs

theorem QsCon.mono {qs : List (QCell p)} {vs : List (ZMod p)} {s s' : Ctx p} (h : QsCon ext s qs vs)
    (e : Ext s s') : QsCon ext s' qs vs :=
  List.Forall₂.imp (fun _ _ hq => hq.mono e) h

theorem assignCells_cmp {qs : List (QCell p)} {vs : List (ZMod p)} (hq : QsCon ext s qs vs)
    (hg : Good tbl ext s) :
    ∃ s', assignCells qs s = some ((), s') ∧ Good tbl ext s' ∧ Ext s s' ∧
      s'.advice = s.advice ++ qs.map QCell.assigned ∧ s'.selector = s.selector := by
  induction qs generalizing s vs with
  | nil => exact ⟨s, rfl, hg, Ext.refl _, by simp, rfl⟩
  | cons q qs ih =>
    cases hq with
    | @cons _ v _ vs h1 h2 =>
      obtain ⟨s1, r1, g1, e1, a1, se1⟩ := assignCell_cmp h1 hg
      obtain ⟨s2, r2, g2, e2, a2, se2⟩ := ih (QsCon.mono (s := s) h2 e1) g1
      exact ⟨s2, bind_some.2 ⟨(), s1, r1, r2⟩, g2, e1.trans e2, by simp [a2, a1], se2.trans se1⟩

omit [Fact p.Prime] in
theorem enableGates_cmp {row : ℕ} {os : List ℤ} {s : Ctx p}
    (h : ∀ o ∈ os, 0 ≤ (row : ℤ) + o ∧ (row : ℤ) + o < s.selector.length) :
    ∃ s', enableGates row os s = some ((), s') := by
  induction os generalizing s with
  | nil => exact ⟨s, rfl⟩
  | cons o os ih =>
    have ho := h o (by simp)
    have ho2 : ((row : ℤ) + o).toNat < s.selector.length := by omega
    obtain ⟨s', h'⟩ := ih (s := { s with selector := s.selector.set ((row : ℤ) + o).toNat true }) (by
      intro o' ho'
      simpa using h o' (by simp [ho']))
    refine ⟨s', bind_some.2 ⟨(), _, ?_, h'⟩⟩
    simp only [ho.1, ho2, and_self, if_true]

theorem QsCon.evals {qs : List (QCell p)} {vs : List (ZMod p)} (h : QsCon ext s qs vs) :
    (qs.map QCell.assigned).map Assigned.eval = vs := by
  induction h with
  | nil => rfl
  | cons h1 _ ih => simp only [List.map_cons, ih, h1.eval]

theorem QsCon.length {qs : List (QCell p)} {vs : List (ZMod p)} (h : QsCon ext s qs vs) :
    qs.length = vs.length := List.Forall₂.length_eq h

/-- Gate condition on the list of region values, non-negative offset `o` with `o + 3` inside. -/
def GateL (vs : List (ZMod p)) (o : ℤ) : Prop :=
  0 ≤ o ∧ o.toNat + 3 < vs.length ∧
  vs.getD o.toNat 0 + vs.getD (o.toNat + 1) 0 * vs.getD (o.toNat + 2) 0 = vs.getD (o.toNat + 3) 0

/-- General region completeness: gates may reach back before the region. -/
theorem assignRegion_cmp' {qs : List (QCell p)} {vs : List (ZMod p)} {gs : List ℤ}
    (hq : QsCon ext s qs vs)
    (hgate : ∀ o ∈ gs, ∃ i : ℕ, (i : ℤ) = s.advice.length + o ∧
      i + 3 < s.advice.length + vs.length ∧
      ((s.advice.map Assigned.eval ++ vs).getD i 0 + (s.advice.map Assigned.eval ++ vs).getD (i+1) 0
        * (s.advice.map Assigned.eval ++ vs).getD (i+2) 0
        = (s.advice.map Assigned.eval ++ vs).getD (i+3) 0)) :
    Cmp tbl ext s (assignRegion qs gs)
      (fun _ s' => s'.advice = s.advice ++ qs.map QCell.assigned) := by
  intro hg
  obtain ⟨s1, r1, g1, e1, a1, se1⟩ := assignCells_cmp hq hg
  have hl : s1.advice.length = s.advice.length + vs.length := by simp [a1, hq.length]
  obtain ⟨s2, r2⟩ := enableGates_cmp (row := s.advice.length) (os := gs)
    (s := { s1 with selector := resize s1.selector s1.advice.length }) (by
      intro o ho
      obtain ⟨i, h1, h2, _⟩ := hgate o ho
      simp only [resize_length _ _ g1.inv.sel]
      omega)
  have hr : assignRegion qs gs s = some ((), s2) := by
    simp only [assignRegion, hg.inv.wgo, Bool.false_eq_true, if_false]
    exact bind_some.2 ⟨(), s1, r1, bind_some.2 ⟨(), _, rfl, r2⟩⟩
  obtain ⟨i2, e2, a2, sl2, ss2, -, -⟩ := assignRegion_spec (tbl := tbl) hg.inv hr
  obtain ⟨sel, rfl, -, -, -⟩ := enableGates_spec r2
  have hv : ∀ j, valAt { s1 with selector := sel } j
      = (s.advice.map Assigned.eval ++ vs).getD j 0 := by
    intro j
    rw [← hq.evals, ← List.map_append, ← a1, List.getD_eq_getElem?_getD, List.getElem?_map]
    rfl
  refine ⟨(), _, hr, ?_, e2, a2⟩
  have ex : Ext s1 { s1 with selector := sel } := by
    refine ⟨rfl, rfl, rfl, rfl, List.prefix_rfl, ?_, List.prefix_rfl, List.prefix_rfl,
      List.prefix_rfl⟩
    intro i hi
    rw [se1] at hi
    exact (ss2 i).2 (Or.inl hi)
  refine g1.extend i2 ex ?_ ?_ (fun _ h => Or.inl h) (fun _ h => Or.inl h) (fun _ h => Or.inl h)
    (fun _ h => Or.inl h)
  · intro i hi
    rcases (ss2 i).1 hi with h | ⟨o, ho, h⟩
    · have := hg.fit i h
      simp only [hl]; omega
    · obtain ⟨j, h1, h2, _⟩ := hgate o ho
      simp only [hl]; omega
  · intro i hi
    rcases (ss2 i).1 hi with h | ⟨o, ho, h⟩
    · left; rw [se1]; exact h
    · right
      obtain ⟨j, h1, h2, h3⟩ := hgate o ho
      obtain rfl : i = j := by omega
      simp only [hv]
      exact h3

theorem assignRegion_cmp {qs : List (QCell p)} {gs : List ℤ} (vs : List (ZMod p))
    (hq : QsCon ext s qs vs) (hgate : ∀ o ∈ gs, GateL vs o) :
    Cmp tbl ext s (assignRegion qs gs)
      (fun _ s' => s'.advice = s.advice ++ qs.map QCell.assigned) := by
  refine assignRegion_cmp' hq ?_
  intro o ho
  obtain ⟨h1, h2, h3⟩ := hgate o ho
  refine ⟨s.advice.length + o.toNat, by push_cast; omega, by omega, ?_⟩
  have : ∀ j, (s.advice.map Assigned.eval ++ vs).getD (s.advice.length + o.toNat + j) 0
      = vs.getD (o.toNat + j) 0 := by
    intro j
    simp only [List.getD_eq_getElem?_getD]
    rw [List.getElem?_append_right (by simp; omega)]
    congr 2; simp; omega
  have h0 := this 0
  simp only [Nat.add_zero] at h0
  rw [h0, this 1, this 2, this 3]
  exact h3

theorem lastM_cmp {a : Assigned p} {l : List (Assigned p)} (h : s.advice = l ++ [a]) :
    Cmp tbl ext s lastM (fun r s' => s' = s ∧ r.value = a ∧ r.cell = some (s.cellAt l.length)) := by
  intro hg
  refine ⟨⟨a, some (s.cellAt l.length)⟩, s, ?_, hg, Ext.refl _, rfl, rfl, rfl⟩
  simp [lastM, last?, unwrap, h, hg.inv.wgo]

/-- The cell at a row of the column, as an assigned value. -/
theorem conF_cellAt {i : ℕ} {v : Assigned p} {a : AV p} (h : s.advice[i]? = some v)
    (hv : a.value = v) (hc : a.cell = some (s.cellAt i)) : ConF ext s a v.eval := by
  refine ⟨by rw [hv], _, hc, valid_cellAt (List.getElem?_eq_some_iff.1 h).1, ?_⟩
  simp [hw_cellAt, valAt, h]

theorem con_cellAt {i : ℕ} {x : ZMod p} {a : AV p} (h : s.advice[i]? = some (.trivial x))
    (hv : a.value = .trivial x) (hc : a.cell = some (s.cellAt i)) : Con ext s a x := by
  refine ⟨hv, _, hc, valid_cellAt (List.getElem?_eq_some_iff.1 h).1, ?_⟩
  simp [hw_cellAt, valAt, h, Assigned.eval]

theorem assignRegionLast_cmp {qs : List (QCell p)} {gs : List ℤ} (vs : List (ZMod p)) {x : ZMod p}
    (hq : QsCon ext s qs vs) (hgate : ∀ o ∈ gs, GateL vs o)
    (hx : qs.getLast?.map QCell.assigned = some (.trivial x)) :
    Cmp tbl ext s (assignRegionLast qs gs) (fun r s' => Con ext s' r x) := by
  refine Cmp.bind (assignRegion_cmp vs hq hgate) fun _ s1 e1 h1 => ?_
  rw [Option.map_eq_some_iff] at hx
  obtain ⟨q, hq1, hq2⟩ := hx
  obtain ⟨qs', rfl⟩ : ∃ l, qs = l ++ [q] := by
    have := List.dropLast_append_getLast? q (by simpa using hq1)
    exact ⟨_, this.symm⟩
  refine (lastM_cmp (l := s.advice ++ qs'.map QCell.assigned) (a := .trivial x)
    (by simp [h1, hq2])).weaken ?_
  rintro r s2 ⟨rfl, h2, h3⟩
  refine con_cellAt ?_ h2 h3
  rw [h1, List.map_append, ← List.append_assoc, List.getElem?_append_right (le_refl _)]
  simp [hq2]

/-- `ctx.get(o)`, completeness. -/
theorem getM_cmp {o : ℤ} {i : ℕ} {v : Assigned p}
    (hi : (i : ℤ) = (if o < 0 then (s.advice.length : ℤ) + o else o)) (hv : s.advice[i]? = some v) :
    Cmp tbl ext s (getM o) (fun r s' => s' = s ∧ r = ⟨v, some (s.cellAt i)⟩) := by
  intro hg
  refine ⟨⟨v, some (s.cellAt i)⟩, s, ?_, hg, Ext.refl _, rfl, rfl⟩
  simp only [getM, ← hi]
  have : ¬ ((i : ℤ) < 0) := by omega
  simp only [this, if_false, Int.toNat_natCast, hv, Option.map_some, hg.inv.wgo, Bool.false_eq_true]

theorem constrainEqual_cmp {a b : AV p} {x : ZMod p} (ha : ConF ext s a x) (hb : ConF ext s b x) :
    Cmp tbl ext s (constrainEqual a b) (fun _ s' => s'.advice = s.advice) := by
  intro hg
  obtain ⟨_, c, hc, vc, xc⟩ := ha
  obtain ⟨_, d, hd, vd, xd⟩ := hb
  have hr : constrainEqual a b s = some ((), { s with eqs := s.eqs ++ [(c, d)] }) := by
    simp [constrainEqual, hg.inv.wgo, hc, hd]
  obtain ⟨i1, e1, -⟩ := constrainEqual_snd (tbl := tbl) a b hg.inv _ _ hr
  refine ⟨(), _, hr, ?_, e1, rfl⟩
  refine hg.extend i1 e1 hg.fit (fun _ h => Or.inl h) ?_ (fun _ h => Or.inl h) (fun _ h => Or.inl h)
    (fun _ h => Or.inl h)
  intro e he
  simp only [List.mem_append, List.mem_singleton] at he
  rcases he with he | rfl
  · exact Or.inl he
  · right
    exact ⟨e1.valid vc, e1.valid vd, by rw [e1.hw ext vc, e1.hw ext vd, xc, xd]⟩

theorem smartEqs_cmp {row : ℕ} {eo : List (ℕ × ℕ)} {ex : List (Cell × ℕ)}
    (h1 : ∀ e ∈ eo, row + e.1 < s.advice.length ∧ row + e.2 < s.advice.length ∧
      valAt s (row + e.1) = valAt s (row + e.2))
    (h2 : ∀ e ∈ ex, row + e.2 < s.advice.length ∧ Valid s e.1 ∧
      hw ext s e.1 = valAt s (row + e.2)) :
    Cmp tbl ext s (smartEqs row eo ex) (fun _ s' => s'.advice = s.advice) := by
  intro hg
  obtain ⟨i1, e1, -⟩ := smartEqs_snd (tbl := tbl) row eo ex hg.inv _ _ rfl
  refine ⟨(), _, rfl, ?_, e1, rfl⟩
  refine hg.extend i1 e1 hg.fit (fun _ h => Or.inl h) ?_ (fun _ h => Or.inl h) (fun _ h => Or.inl h)
    (fun _ h => Or.inl h)
  intro e he
  simp only [List.mem_append, List.mem_map] at he
  rcases he with (he | ⟨a, ha, rfl⟩) | ⟨a, ha, rfl⟩
  · exact Or.inl he
  · right
    obtain ⟨k1, k2, k3⟩ := h1 a ha
    have v1 := valid_cellAt k1
    have v2 := valid_cellAt k2
    refine ⟨e1.valid v1, e1.valid v2, ?_⟩
    dsimp only
    rw [e1.hw ext v1, e1.hw ext v2, hw_cellAt, hw_cellAt, k3]
  · right
    obtain ⟨k1, k2, k3⟩ := h2 a ha
    have v1 := valid_cellAt k1
    refine ⟨e1.valid k2, e1.valid v1, ?_⟩
    dsimp only
    rw [e1.hw ext v1, e1.hw ext k2, hw_cellAt, k3]

theorem syncSelector_cmp : Cmp tbl ext s (syncSelector : M p Unit)
    (fun _ s' => s'.advice = s.advice) := by
  intro hg
  obtain ⟨i1, e1, -⟩ := syncSelector_snd (tbl := tbl) hg.inv _ _ rfl
  refine ⟨(), _, rfl, ?_, e1, by simp [hg.inv.wgo]⟩
  have : ∀ i : ℕ, (if s.wgo = true then s else { s with selector := resize s.selector s.advice.length }).selector[i]?
      = some true → s.selector[i]? = some true := by
    intro i hi
    simp only [hg.inv.wgo, Bool.false_eq_true, if_false] at hi
    exact (resize_get _ _ _ hg.inv.sel).1 hi
  refine hg.extend i1 e1 ?_ (fun i hi => Or.inl (this i hi)) ?_ ?_ ?_ ?_
  · intro i hi
    simpa [hg.inv.wgo] using hg.fit i (this i hi)
  all_goals
    simp only [hg.inv.wgo, Bool.false_eq_true, if_false]
    exact fun _ h => Or.inl h

theorem loadCell_cmp {q : QCell p} {x : ZMod p} (hq : QConF ext s q x) :
    Cmp tbl ext s (do assignCell q; syncSelector; lastM)
      (fun r s' => r.value = q.assigned ∧ ConF ext s' r x) := by
  refine Cmp.bind (Q := fun _ s' => s'.advice = s.advice ++ [q.assigned]) ?_ fun _ s1 e1 h1 => ?_
  · intro hg
    obtain ⟨s', a, b, c, d, _⟩ := assignCell_cmp hq hg
    exact ⟨(), s', a, b, c, d⟩
  refine Cmp.bind syncSelector_cmp fun _ s2 e2 h2 => ?_
  refine (lastM_cmp (l := s.advice) (a := q.assigned) (by rw [h2, h1])).weaken ?_
  rintro r s3 ⟨rfl, h3, h4⟩
  refine ⟨h3, ?_⟩
  have := conF_cellAt (ext := ext) (s := s3) (a := r) (i := s.advice.length) (v := q.assigned)
    (by simp [h2, h1]) h3 h4
  rwa [hq.eval] at this

theorem loadWitness_cmp (x : ZMod p) :
    Cmp tbl ext s (loadWitness x) (fun r s' => Con ext s' r x) :=
  (loadCell_cmp (q := .witness x) (x := x) rfl).weaken fun _ _ h => ⟨h.1, h.2.2⟩

theorem loadConstant_cmp (x : ZMod p) :
    Cmp tbl ext s (loadConstant x) (fun r s' => Con ext s' r x) :=
  (loadCell_cmp (q := .constant x) (x := x) rfl).weaken fun _ _ h => ⟨h.1, h.2.2⟩

/-- `AvsCon s as xs`: the assigned values `as` hold `xs`. -/
def AvsCon (ext : Cell → ZMod p) (s : Ctx p) (as : List (AV p)) (xs : List (ZMod p)) : Prop :=
  List.Forall₂ (Con ext s) as xs

theorem AvsCon.mono {as : List (AV p)} {xs : List (ZMod p)} {s s' : Ctx p} (h : AvsCon ext s as xs)
    (e : Ext s s') : AvsCon ext s' as xs :=
  List.Forall₂.imp (fun _ _ hq => hq.mono e) h

theorem loadConstants_cmp (cs : List (ZMod p)) :
    Cmp tbl ext s (loadConstants cs) (fun rs s' => AvsCon ext s' rs cs) := by
  induction cs generalizing s with
  | nil => exact Cmp.pure List.Forall₂.nil
  | cons c cs ih =>
    refine Cmp.bind (loadConstant_cmp c) fun a s1 _ h1 => ?_
    refine Cmp.bind ih fun as s2 e2 h2 => ?_
    exact Cmp.pure (List.Forall₂.cons (h1.mono e2) h2)

theorem loadZero_cmp : Cmp tbl ext s loadZero (fun r s' => Con ext s' r 0) := by
  intro hg
  cases hz : s.zeroCell with
  | some z =>
    refine ⟨z, s, by simp [loadZero, hz], hg, Ext.refl _, hg.zero z hz⟩
  | none =>
    obtain ⟨z, s1, r1, g1, e1, c1⟩ := loadConstant_cmp (tbl := tbl) (ext := ext) (s := s) 0 hg
    have hr : loadZero s = some (z, { s1 with zeroCell := some z }) := by
      simp only [loadZero, hz]
      exact bind_some.2 ⟨z, s1, r1, rfl⟩
    obtain ⟨i2, e2, -⟩ := loadZero_sound (tbl := tbl) s hg.inv _ _ hr
    have ex : Ext s1 { s1 with zeroCell := some z } :=
      ⟨rfl, rfl, rfl, rfl, List.prefix_rfl, fun _ h => h, List.prefix_rfl, List.prefix_rfl,
        List.prefix_rfl⟩
    refine ⟨z, _, hr, ?_, e2, c1.mono ex⟩
    refine g1.extend i2 ex g1.fit (fun _ h => Or.inl h) (fun _ h => Or.inl h) (fun _ h => Or.inl h)
      (fun _ h => Or.inl h) ?_
    intro z' hz'
    simp only [Option.some.injEq] at hz'
    subst hz'
    exact Or.inr (c1.mono ex)

theorem assertIsConst_cmp {a : AV p} {c : ZMod p} (ha : ConF ext s a c) :
    Cmp tbl ext s (assertIsConst a c) (fun _ s' => s'.advice = s.advice) := by
  intro hg
  obtain ⟨_, x, hx, vx, xx⟩ := ha
  have hr : assertIsConst a c s = some ((), { s with consts := s.consts ++ [(c, x)] }) := by
    simp [assertIsConst, hg.inv.wgo, hx]
  obtain ⟨i1, e1, -⟩ := assertIsConst_sound (tbl := tbl) a c s hg.inv _ _ hr
  refine ⟨(), _, hr, ?_, e1, rfl⟩
  refine hg.extend i1 e1 hg.fit (fun _ h => Or.inl h) (fun _ h => Or.inl h) ?_ (fun _ h => Or.inl h)
    (fun _ h => Or.inl h)
  intro e he
  simp only [List.mem_append, List.mem_singleton] at he
  rcases he with he | rfl
  · exact Or.inl he
  · right
    exact ⟨e1.valid vx, by rw [e1.hw ext vx, xx]⟩

theorem addCellToLookup_cmp {a : AV p} {x : ZMod p} (ha : ConF ext s a x) (ht : tbl x) :
    Cmp tbl ext s (addCellToLookup a) (fun _ s' => s'.advice = s.advice) := by
  intro hg
  obtain ⟨xv, c, hc, vc, xc⟩ := ha
  obtain ⟨i1, e1, -⟩ := addCellToLookup_sound (tbl := tbl) a s hg.inv _ _ rfl
  refine ⟨(), _, rfl, ?_, e1, rfl⟩
  refine hg.extend i1 e1 hg.fit (fun _ h => Or.inl h) (fun _ h => Or.inl h) (fun _ h => Or.inl h) ?_
    (fun _ h => Or.inl h)
  intro e he
  simp only [List.mem_append, List.mem_singleton] at he
  rcases he with he | rfl
  · exact Or.inl he
  · right
    exact ⟨c, hc, e1.valid vc, by rw [e1.hw ext vc, xc, xv], by rw [e1.hw ext vc, xc]; exact ht⟩

end
end H2
