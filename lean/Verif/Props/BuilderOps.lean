import Verif.Props.Builder

/-!
# C82: what a history of calls leaves in the builder

Public columns, parameters, break points, and the absence of constraints in a prover.
-/

set_option autoImplicit false
set_option linter.unusedSectionVars false
namespace H2.Bld
open H2 Phys
variable {p : ℕ}

/-! ## Specification -/

/-- What a history of calls exposes in the public columns: the values pushed since the last `clear`, in order. -/
def exposed (acc : ℕ → List (AV p)) : List (Op p) → ℕ → List (AV p)
  | [] => acc
  | .clear :: ops => exposed (fun _ => []) ops
  | .expose c a :: ops => exposed (fun k => if k = c then acc k ++ [a] else acc k) ops
  | _ :: ops => exposed acc ops

/-- The last `k` set. -/
def lastK (k : ℕ) : List (Op p) → ℕ
  | [] => k
  | .setK k :: ops => lastK k ops
  | .setParams ps :: ops => lastK ps.k ops
  | _ :: ops => lastK k ops

/-- The last `lookup_bits` set. -/
def lastBits (l : Option ℕ) : List (Op p) → Option ℕ
  | [] => l
  | .setLookupBits n :: ops => lastBits (some n) ops
  | .setParams ps :: ops => lastBits ps.lookupBits ops
  | _ :: ops => lastBits l ops

/-! ## Proofs -/

theorem setInst_eq {b b' : Builder p} {n : ℕ} (e : b.setInstanceColumns n = some b') :
    b' = { b with params := { b.params with numInst := n }, instances := b.instances ++ List.replicate (n - b.instances.length) [] } := by
  simp only [Builder.setInstanceColumns] at e
  split at e
  · exact (Option.some.inj e).symm
  · cases e

theorem getD_pad (l : List (List (AV p))) (n k : ℕ) : ((l ++ List.replicate n [])[k]?).getD [] = (l[k]?).getD [] := by
  rw [List.getElem?_append]
  split
  · rfl
  · rename_i h
    rw [List.getElem?_replicate, List.getElem?_eq_none (by omega)]
    split <;> rfl

/-- What a call on a context leaves alone. -/
theorem ctxOp_kept {b b' : Builder p} {op : Op p} (st : op.Step b b') (h : match op with | .main .. | .newThread .. | .parallelize .. => True | _ => False) :
    b'.instances = b.instances ∧ b'.params = b.params ∧ b'.wgo = b.wgo := by
  have hn : ∀ {α : Type} {c c' : Builder p} {ph : ℕ} {m : M p α} {r : α}, c.newThread ph m = some (r, c') →
      c'.instances = c.instances ∧ c'.params = c.params ∧ c'.wgo = c.wgo := by
    intro α c c' ph m r e
    simp only [Builder.newThread, Option.bind_eq_bind, Option.bind_eq_some_iff, Option.pure_def, Option.some.injEq, Prod.mk.injEq] at e
    obtain ⟨pm, -, s, -, ⟨r', s'⟩, -, -, rfl⟩ := e
    exact ⟨rfl, rfl, rfl⟩
  cases op with
  | newThread ph m => obtain ⟨r, e⟩ := st; exact hn e
  | main ph m =>
    obtain ⟨r, e⟩ := st
    simp only [Builder.main, Option.bind_eq_bind, Option.bind_eq_some_iff] at e
    obtain ⟨pm, -, e⟩ := e
    split at e
    · exact hn (c := b.touch ph) e
    · simp only [Option.bind_eq_some_iff, Option.pure_def, Option.some.injEq, Prod.mk.injEq] at e
      obtain ⟨⟨r', s'⟩, -, -, rfl⟩ := e
      exact ⟨rfl, rfl, rfl⟩
  | parallelize ph input f =>
    obtain ⟨rs, pm, t, ss, eqs, consts, queued, -, -, -, -, -, -, rfl⟩ := st
    exact ⟨rfl, rfl, rfl⟩
  | _ => exact h.elim

theorem setBreakPoints_eq {b b' : Builder p} {bps : List (List ℕ)} (e : b.setBreakPoints bps = some b') : b' = b ∨
    bps ≠ [] ∧ (b.touch (bps.length - 1)).phases.length = bps.length ∧
      b' = { b.touch (bps.length - 1) with phases := (b.touch (bps.length - 1)).phases.zipWith (fun pm bp => { pm with bps := some bp }) bps } := by
  simp only [Builder.setBreakPoints] at e
  split at e
  · exact .inl (Option.some.inj e).symm
  · rename_i hne
    split at e
    · rename_i hl
      exact .inr ⟨hne, hl, (Option.some.inj e).symm⟩
    · cases e

theorem synth_kept {b b' : Builder p} {mr us : ℕ} (st : (Op.synthesize mr us).Step b b') :
    b'.instances = b.instances ∧ b'.params = b.params ∧ b'.wgo = b.wgo := by
  rcases st with ⟨-, reg, e⟩ | ⟨-, -, rfl⟩
  · simp only [Builder.synthesize, Option.bind_eq_bind, Option.bind_eq_some_iff] at e
    obtain ⟨pm, -, e⟩ := e
    split at e
    · cases e
    · simp only [Option.bind_eq_some_iff] at e
      obtain ⟨⟨r, map, bps⟩, -, e⟩ := e
      dsimp only at e
      split at e
      · simp only [Option.some.injEq, Prod.mk.injEq] at e
        obtain ⟨-, rfl⟩ := e
        exact ⟨rfl, rfl, rfl⟩
      · cases e
  · exact ⟨rfl, rfl, rfl⟩

theorem step_wgo {b b' : Builder p} {op : Op p} (st : op.Step b b') : b'.wgo = b.wgo := by
  cases op with
  | main | newThread | parallelize => exact (ctxOp_kept st trivial).2.2
  | expose c a =>
    simp only [Op.Step, Builder.expose] at st
    split at st
    · rw [← Option.some.inj st]
    · cases st
  | setInstanceColumns n => rw [setInst_eq st]
  | setParams ps =>
    simp only [Op.Step, Builder.setParams] at st
    obtain ⟨b1, e, rfl⟩ := Option.map_eq_some_iff.1 st
    rw [setInst_eq e]
  | setK | setLookupBits | unknown | clear => rw [show b' = _ from st]; rfl
  | calculateParams m =>
    simp only [Op.Step, Builder.calculateParams] at st
    split at st
    · cases st
    · rw [← Option.some.inj st]
  | setBreakPoints bps =>
    rcases setBreakPoints_eq st with rfl | ⟨-, -, rfl⟩
    · rfl
    · rfl
  | synthesize => exact (synth_kept st).2.2

theorem exposed_of {ops : List (Op p)} {b b' : Builder p} (h : Hist ops b b') : ∀ {acc : ℕ → List (AV p)},
    (∀ k, (b.instances[k]?).getD [] = acc k) → ∀ k, (b'.instances[k]?).getD [] = exposed acc ops k := by
  induction h with
  | nil b => intro acc hb k; exact hb k
  | @cons op ops b b1 b2 ok st _ ih =>
    intro acc hb
    cases op with
    | main | newThread | parallelize =>
      exact ih fun k => by rw [(ctxOp_kept st trivial).1]; exact hb k
    | expose c a =>
      refine ih fun k => ?_
      simp only [Op.Step, Builder.expose] at st
      split at st
      · rename_i hc
        obtain rfl := Option.some.inj st
        dsimp only
        rw [List.getElem?_modify]
        by_cases hk : k = c
        · subst hk
          have e := List.getElem?_eq_getElem hc
          have := hb k
          rw [e, Option.getD_some] at this
          simp only [e, if_true, Option.map_eq_map, Option.map_some, Option.getD_some, this]
        · simp only [if_neg hk, if_neg (Ne.symm hk), Option.map_eq_map, Option.map_id_fun', id, hb k]
      · cases st
    | setInstanceColumns n => exact ih fun k => by rw [setInst_eq st, getD_pad]; exact hb k
    | setParams ps =>
      simp only [Op.Step, Builder.setParams] at st
      obtain ⟨b1, e, rfl⟩ := Option.map_eq_some_iff.1 st
      exact ih fun k => by rw [setInst_eq e, getD_pad]; exact hb k
    | setK | setLookupBits | unknown => exact ih fun k => by rw [show b1 = _ from st]; exact hb k
    | clear =>
      refine ih fun k => ?_
      rw [show b1 = _ from st]
      simp only [Builder.clear, List.getElem?_map]
      cases b.instances[k]? <;> rfl
    | calculateParams m =>
      simp only [Op.Step, Builder.calculateParams] at st
      split at st
      · cases st
      · rw [← Option.some.inj st] at ih
        exact ih hb
    | setBreakPoints bps =>
      rcases setBreakPoints_eq st with rfl | ⟨-, -, rfl⟩
      · exact ih hb
      · exact ih hb
    | synthesize => exact ih fun k => by rw [(synth_kept st).1]; exact hb k

/-- **C82, public columns.**  After every history of calls on a new builder, public column `k` holds the values exposed in it since the
last `clear`, in the order of the calls, and nothing else. -/
theorem C82_public_columns {wgo : Bool} {ops : List (Op p)} {b : Builder p} (h : Hist ops (Builder.new wgo) b) {k : ℕ}
    (hk : k < b.params.numInst) : b.instances[k]? = some (exposed (fun _ => []) ops k) := by
  have hl := (C78_columns_match ⟨wgo, ops, h⟩).2
  have e := exposed_of h (acc := fun _ => []) (fun k => by simp [Builder.new]) k
  have := List.getElem?_eq_getElem (show k < b.instances.length by omega)
  rw [this, Option.getD_some] at e
  rw [this, e]

theorem params_of {ops : List (Op p)} {b b' : Builder p} (h : Hist ops b b') :
    b'.params.k = lastK b.params.k ops ∧ b'.params.lookupBits = lastBits b.params.lookupBits ops := by
  induction h with
  | nil b => exact ⟨rfl, rfl⟩
  | @cons op ops b b1 b2 ok st _ ih =>
    cases op with
    | main | newThread | parallelize => rw [(ctxOp_kept st trivial).2.1] at ih; exact ih
    | expose c a =>
      simp only [Op.Step, Builder.expose] at st
      split at st
      · rw [← Option.some.inj st] at ih; exact ih
      · cases st
    | setInstanceColumns n => rw [setInst_eq st] at ih; exact ih
    | setParams ps =>
      simp only [Op.Step, Builder.setParams] at st
      obtain ⟨b1, e, rfl⟩ := Option.map_eq_some_iff.1 st
      exact ih
    | setK | setLookupBits | unknown | clear => rw [show b1 = _ from st] at ih; exact ih
    | calculateParams m =>
      simp only [Op.Step, Builder.calculateParams] at st
      split at st
      · cases st
      · rw [← Option.some.inj st] at ih; exact ih
    | setBreakPoints bps =>
      rcases setBreakPoints_eq st with rfl | ⟨-, -, rfl⟩
      · exact ih
      · exact ih
    | synthesize => rw [(synth_kept st).2.1] at ih; exact ih

/-- **C82, parameters.**  After every history of calls on a new builder, `k` and `lookup_bits` are the ones set last (0 and none when
never set): no call but the setters touches them. -/
theorem C82_parameters {wgo : Bool} {ops : List (Op p)} {b : Builder p} (h : Hist ops (Builder.new wgo) b) :
    b.params.k = lastK 0 ops ∧ b.params.lookupBits = lastBits none ops := params_of h

theorem mapM_zip : ∀ (l : List (PhaseMgr p)) (bps : List (List ℕ)), l.length = bps.length →
    (l.zipWith (fun pm bp => { pm with bps := some bp }) bps).mapM (·.bps) = some bps
  | [], [], _ => rfl
  | [], _ :: _, h => by simp at h
  | _ :: _, [], h => by simp at h
  | x :: l, c :: bps, h => by
    simp only [List.zipWith_cons_cons, List.mapM_cons, mapM_zip l bps (by simpa using h)]
    rfl

/-- **C82, break points.**  Break points set are those read back, and setting them changes neither contexts nor constraints; it succeeds
unless there are more phases in use than break points. -/
theorem C82_break_points {b : Builder p} (hb : Reachable b) (bps : List (List ℕ)) :
    (b.setBreakPoints bps = none ↔ bps ≠ [] ∧ bps.length < b.phases.length) ∧
    ∀ b', b.setBreakPoints bps = some b' → (bps ≠ [] → b'.breakPoints = some bps) ∧ (∀ i, b'.threadsOf i = b.threadsOf i) ∧
      b'.cm = b.cm ∧ b'.lookups = b.lookups ∧ b'.params = b.params ∧ b'.instances = b.instances := by
  have hlen : ∀ n, (b.touch n).phases.length = max b.phases.length (n + 1) := by
    intro n
    simp only [Builder.touch, List.length_append, List.length_map, List.length_range']
    omega
  refine ⟨?_, fun b' e => ?_⟩
  · simp only [Builder.setBreakPoints]
    split
    · rename_i h; simp [h]
    · rename_i h
      have : 0 < bps.length := List.length_pos_of_ne_nil h
      rw [hlen]
      split
      · rename_i h2
        simp only [reduceCtorEq, false_iff, not_and, not_lt]
        omega
      · rename_i h2
        simp only [true_iff]
        exact ⟨h, by omega⟩
  · rcases setBreakPoints_eq e with rfl | ⟨-, hl, rfl⟩
    · refine ⟨fun hne => ?_, fun i => rfl, rfl, rfl, rfl, rfl⟩
      simp only [Builder.setBreakPoints, hne, if_false] at e
      split at e
      · rename_i hl
        have := Option.some.inj e
        rw [← this]
        exact mapM_zip _ _ hl
      · cases e
    · refine ⟨fun _ => mapM_zip _ _ hl, fun i => ?_, rfl, rfl, rfl, rfl⟩
      rw [← touch_threadsOf hb.inv (bps.length - 1) i]
      have hz := List.forall₂_iff_get.1 (same_zip _ _ hl)
      unfold Builder.threadsOf
      dsimp only
      by_cases hi : i < (b.touch (bps.length - 1)).phases.length
      · rw [List.getElem?_eq_getElem hi, List.getElem?_eq_getElem (by rw [← hz.1]; exact hi)]
        have := (hz.2 i hi (by rw [← hz.1]; exact hi)).1
        simpa using this
      · rw [List.getElem?_eq_none (by rw [← hz.1]; omega), List.getElem?_eq_none (by omega)]

/-- A prover's context records no constraint. -/
def Silent {α : Type} (m : M p α) : Prop := ∀ s r s', s.wgo = true → m s = some (r, s') → s'.wgo = true ∧ s'.eqs = s.eqs ∧ s'.consts = s.consts

theorem Silent.bind {α β : Type} {m : M p α} {f : α → M p β} (h : Silent m) (k : ∀ a, Silent (f a)) : Silent (m >>= f) := by
  intro s r s' hw e
  simp only [Bind.bind, StateT.bind, Option.bind_eq_some_iff] at e
  obtain ⟨⟨a, s1⟩, h1, h2⟩ := e
  obtain ⟨x1, x2, x3⟩ := h _ _ _ hw h1
  obtain ⟨y1, y2, y3⟩ := k _ _ _ _ x1 h2
  exact ⟨y1, y2.trans x2, y3.trans x3⟩

theorem Silent.read {α : Type} {m : M p α} (h : ∀ s r s', m s = some (r, s') → s' = s) : Silent m := fun s r s' hw e => by
  rw [h s r s' e]; exact ⟨hw, rfl, rfl⟩

theorem silent_assignCell (q : QCell p) : Silent (assignCell q) := by
  intro s r s' hw e
  cases q <;> simp only [assignCell, hw, if_true, Option.some.injEq, Prod.mk.injEq, true_and] at e <;> subst e <;> exact ⟨rfl, rfl, rfl⟩

theorem silent_assignCells (qs : List (QCell p)) : Silent (assignCells qs) := by
  induction qs with
  | nil => exact Silent.read fun s r s' e => by simp only [assignCells, Pure.pure, StateT.pure, Option.some.injEq, Prod.mk.injEq] at e; exact e.2.symm
  | cons q qs ih => exact (silent_assignCell q).bind fun _ => ih

theorem silent_assignRegion (qs : List (QCell p)) (gs : List ℤ) : Silent (assignRegion qs gs) := by
  intro s r s' hw e
  simp only [assignRegion, hw, if_true] at e
  exact silent_assignCells qs _ _ _ hw e

theorem silent_sync : Silent (syncSelector : M p Unit) := by
  intro s r s' hw e
  simp only [syncSelector, hw, if_true, Option.some.injEq, Prod.mk.injEq, true_and] at e
  rw [← e]; exact ⟨hw, rfl, rfl⟩

theorem silent_lastM : Silent (lastM : M p _) := by
  refine Silent.bind (Silent.read fun s r s' e => ?_) fun o => Silent.read fun s r s' e => ?_
  · simp only [last?, Option.some.injEq, Prod.mk.injEq] at e; exact e.2.symm
  · simp only [unwrap, Option.map_eq_some_iff, Prod.mk.injEq] at e
    obtain ⟨_, _, _, h⟩ := e; exact h.symm

theorem silent_loadConstant (c : ZMod p) : Silent (loadConstant c) :=
  (silent_assignCell _).bind fun _ => silent_sync.bind fun _ => silent_lastM

theorem CtxProg.silent {α : Type} {m : M p α} (h : CtxProg m) : Silent m := by
  induction h with
  | pure a => exact Silent.read fun s r s' e => by simp only [Pure.pure, StateT.pure, Option.some.injEq, Prod.mk.injEq] at e; exact e.2.symm
  | bind _ _ h1 h2 => exact h1.bind h2
  | read h => exact Silent.read h
  | assignRegion qs gs => exact silent_assignRegion qs gs
  | assignRegionSmart qs gs e x =>
    intro s r s' hw h
    refine Silent.bind (silent_assignRegion qs gs) (fun _ => ?_) s r s' hw h
    rw [if_pos hw]
    exact Silent.read fun s r s' e => by simp only [Pure.pure, StateT.pure, Option.some.injEq, Prod.mk.injEq] at e; exact e.2.symm
  | constrainEqual a b =>
    intro s r s' hw e
    simp only [H2.constrainEqual, hw, if_true, Option.some.injEq, Prod.mk.injEq, true_and] at e
    rw [← e]; exact ⟨hw, rfl, rfl⟩
  | assignWitnesses ws =>
    intro s r s' hw h
    refine Silent.bind (silent_assignRegion _ _) (fun _ => Silent.read ?_) s r s' hw h
    intro s r s' e
    simp only [Option.some.injEq, Prod.mk.injEq] at e; exact e.2.symm
  | loadWitness x => exact (silent_assignCell _).bind fun _ => silent_sync.bind fun _ => silent_lastM
  | loadConstant c => exact silent_loadConstant c
  | loadZero =>
    intro s r s' hw e
    unfold H2.loadZero at e
    split at e
    · simp only [Option.some.injEq, Prod.mk.injEq] at e; rw [← e.2]; exact ⟨hw, rfl, rfl⟩
    · refine Silent.bind (silent_loadConstant 0) (fun _ => Silent.bind ?_ fun _ => Silent.read ?_) _ _ _ hw e
      · intro s r s' hw e
        simp only [Option.some.injEq, Prod.mk.injEq, true_and] at e; rw [← e]; exact ⟨hw, rfl, rfl⟩
      · intro s r s' e
        simp only [Pure.pure, StateT.pure, Option.some.injEq, Prod.mk.injEq] at e; exact e.2.symm
  | assertIsConst a c =>
    intro s r s' hw e
    simp only [H2.assertIsConst, hw, if_true, Option.some.injEq, Prod.mk.injEq, true_and] at e
    rw [← e]; exact ⟨hw, rfl, rfl⟩
  | addCellToLookup a =>
    intro s r s' hw e
    simp only [H2.addCellToLookup, Option.some.injEq, Prod.mk.injEq, true_and] at e
    rw [← e]; exact ⟨hw, rfl, rfl⟩

/-- **C82, prover.**  After every history of calls a witness-generation-only builder holds no copy constraint. -/
theorem C82_prover_records_nothing {ops : List (Op p)} {b : Builder p} (h : Hist ops (Builder.new true) b) :
    b.cm.eqs = [] ∧ b.cm.consts = [] ∧ ∀ t ∈ b.contexts, t.eqs = [] ∧ t.consts = [] := by
  suffices H : ∀ {b b' : Builder p}, Hist ops b b' → BInv b → b.wgo = true → b.cm.eqs = [] → b.cm.consts = [] →
      b'.cm.eqs = [] ∧ b'.cm.consts = [] by
    obtain ⟨h1, h2⟩ := H h (BInv.new true) rfl rfl rfl
    obtain ⟨e1, e2⟩ := C78_constraints_kept ⟨true, ops, h⟩
    rw [h1] at e1
    rw [h2] at e2
    have e1 := e1.symm.eq_nil
    have e2 := e2.symm.eq_nil
    rw [List.flatMap_eq_nil_iff] at e1 e2
    exact ⟨h1, h2, fun t ht => ⟨e1 t ht, e2 t ht⟩⟩
  clear h b
  intro b b' h
  induction h with
  | nil b => intro _ _ h1 h2; exact ⟨h1, h2⟩
  | @cons op ops b b1 b2 ok st hh ih =>
    intro hi hw h1 h2
    have hn : ∀ {α : Type} {c c' : Builder p} {ph : ℕ} {m : M p α} {r : α}, CtxProg m → c.newThread ph m = some (r, c') →
        BInv c → c.wgo = true → c.cm.eqs = [] → c.cm.consts = [] → c'.cm.eqs = [] ∧ c'.cm.consts = [] := by
      intro α c c' ph m r hm e hi hw h1 h2
      simp only [Builder.newThread, Option.bind_eq_bind, Option.bind_eq_some_iff, Option.pure_def, Option.some.injEq, Prod.mk.injEq] at e
      obtain ⟨pm, hp, s, hs, ⟨r', s'⟩, hr, -, rfl⟩ := e
      obtain ⟨t, -, rfl⟩ := newContext_eq hs
      obtain ⟨-, x2, x3⟩ := hm.silent _ _ _ (by
        show pm.wgo = true
        rw [((hi.touch ph).pm _ _ hp).2.1]; exact hw) hr
      simp only [Builder.absorb, Builder.setThreads, Builder.touch, h1, h2, x2, x3, Ctx.new, List.drop_nil, List.append_nil, and_self]
    have key : b1.cm.eqs = [] ∧ b1.cm.consts = [] := by
      cases op with
      | newThread ph m => obtain ⟨r, e⟩ := st; exact hn ok e hi hw h1 h2
      | main ph m =>
        obtain ⟨r, e⟩ := st
        simp only [Builder.main, Option.bind_eq_bind, Option.bind_eq_some_iff] at e
        obtain ⟨pm, hp, e⟩ := e
        split at e
        · exact hn ok e (hi.touch ph) hw h1 h2
        · rename_i s hs
          simp only [Option.bind_eq_some_iff, Option.pure_def, Option.some.injEq, Prod.mk.injEq] at e
          obtain ⟨⟨r', s'⟩, hr, -, rfl⟩ := e
          have hm := (hi.touch ph).pm _ _ hp
          obtain ⟨j, hj⟩ := List.getElem?_of_mem (List.mem_of_getLast? hs)
          obtain ⟨-, x2, x3⟩ := CtxProg.silent ok _ _ _ ((hm.2.2 j s hj).wgo.trans hw) hr
          simp only [Builder.absorb, Builder.setThreads, Builder.touch, h1, h2, x2, x3, List.drop_length, List.append_nil, and_self]
      | parallelize ph input f =>
        obtain ⟨rs, pm, t, ss, eqs, consts, queued, hp, -, hrun, he, hc, -, rfl⟩ := st
        obtain ⟨-, hlen, hrun⟩ := parLoop_spec input hrun
        have hs : ∀ s ∈ ss, s.eqs = [] ∧ s.consts = [] := by
          intro s hs
          obtain ⟨j, hj⟩ := List.getElem?_of_mem hs
          have hjl := (List.getElem?_eq_some_iff.1 hj).1
          have hx := List.getElem?_eq_getElem (show j < input.length by omega)
          obtain ⟨r, s1, -, h2, h3⟩ := hrun j _ hx
          rw [hj] at h2; cases h2
          obtain ⟨-, x2, x3⟩ := (ok _ (List.getElem_mem _)).silent _ _ _ (by
            show pm.wgo = true
            rw [(hi.pm _ _ hp).2.1]; exact hw) h3
          exact ⟨x2, x3⟩
        have he : eqs = [] := by
          have := he.perm
          rw [List.flatten_eq_nil_iff.2 (by intro l hl; obtain ⟨s, h1, rfl⟩ := List.mem_map.1 hl; exact (hs s h1).1)] at this
          exact this.eq_nil
        have hc : consts = [] := by
          have := hc.perm
          rw [List.flatten_eq_nil_iff.2 (by intro l hl; obtain ⟨s, h1, rfl⟩ := List.mem_map.1 hl; exact (hs s h1).2)] at this
          exact this.eq_nil
        simp [h1, h2, he, hc]
      | expose c a =>
        simp only [Op.Step, Builder.expose] at st
        split at st
        · rw [← Option.some.inj st]; exact ⟨h1, h2⟩
        · cases st
      | setInstanceColumns n => rw [setInst_eq st]; exact ⟨h1, h2⟩
      | setParams ps =>
        simp only [Op.Step, Builder.setParams] at st
        obtain ⟨b1, e, rfl⟩ := Option.map_eq_some_iff.1 st
        rw [setInst_eq e]; exact ⟨h1, h2⟩
      | setK | setLookupBits | unknown => rw [show b1 = _ from st]; exact ⟨h1, h2⟩
      | clear => rw [show b1 = _ from st]; exact ⟨rfl, rfl⟩
      | calculateParams m =>
        simp only [Op.Step, Builder.calculateParams] at st
        split at st
        · cases st
        · rw [← Option.some.inj st]; exact ⟨h1, h2⟩
      | setBreakPoints bps =>
        rcases setBreakPoints_eq st with rfl | ⟨-, -, rfl⟩
        · exact ⟨h1, h2⟩
        · exact ⟨h1, h2⟩
      | synthesize mr us =>
        rcases st with ⟨h0, -⟩ | ⟨-, -, rfl⟩
        · rw [hw] at h0; cases h0
        · exact ⟨h1, h2⟩
    exact ih (hi.step ok st) ((step_wgo st).trans hw) key.1 key.2

theorem addLookup_length (t : Tag) (c : List (AV p)) : ∀ m : Buckets p, (addLookup m t c).all.length = m.all.length + 1
  | [] => rfl
  | (t', l) :: m => by
    have ih := addLookup_length t c m
    unfold addLookup
    simp only [Buckets.all] at ih ⊢
    split
    · simp only [List.flatMap_cons, List.length_append, List.length_singleton]; omega
    · split
      · simp only [List.flatMap_cons, List.length_append, List.length_singleton]; omega
      · simp only [List.flatMap_cons, List.length_append, ih]; omega

theorem addLookups_length (es : List (Tag × List (AV p))) : ∀ m : Buckets p, (addLookups m es).all.length = m.all.length + es.length := by
  induction es with
  | nil => intro m; rfl
  | cons e es ih =>
    intro m
    have := ih (addLookup m e.1 e.2)
    rw [addLookup_length] at this
    simp only [addLookups, List.foldl_cons, List.length_cons] at this ⊢
    omega

theorem div_spec {n d : ℕ} (hd : 0 < d) : n ≤ (n + d - 1) / d * d ∧ ∀ c, n ≤ c * d → (n + d - 1) / d ≤ c := by
  have h1 := Nat.div_add_mod (n + d - 1) d
  have h2 := Nat.mod_lt (n + d - 1) hd
  rw [Nat.mul_comm] at h1
  refine ⟨by omega, fun c hc => ?_⟩
  rw [Nat.div_le_iff_le_mul hd]
  omega

/-- **C82, `calculate_params`.**  The computed numbers of columns: one gate entry per phase and one lookup entry for each of the 3 phases,
each the least number of columns with room for the phase's cells (respectively its lookups) in rows `0 .. 2^k - minimum_rows`; the number of
fixed columns is the least with room for the distinct constants in `2^k` rows; `k`, `lookup_bits` and the public columns are kept. -/
theorem C82_calculate_params {b b' : Builder p} (hb : Reachable b) {minRows : Option ℕ} (e : b.calculateParams minRows = some b') :
    let d := 2 ^ b.params.k - minRows.getD 0
    let ps := b'.params
    ps.k = b.params.k ∧ ps.lookupBits = b.params.lookupBits ∧ ps.numInst = b.params.numInst ∧
    ps.numAdvice.length = b.phases.length ∧ ps.numLookup.length = 3 ∧
    (∀ (i n : ℕ), ps.numAdvice[i]? = some n → IsLeast {c | totalAdvice (b.threadsOf i) ≤ c * d} n) ∧
    (∀ (i n : ℕ), ps.numLookup[i]? = some n → IsLeast {c | ((b.threadsOf i).map fun t => t.lookups.length).sum ≤ c * d} n) ∧
    IsLeast {c | ((b.contexts.flatMap (·.consts)).map Prod.fst).toFinset.card ≤ c * 2 ^ b.params.k} ps.numFixed := by
  have hi := hb.inv
  simp only [Builder.calculateParams] at e
  split at e
  · cases e
  rename_i hk
  obtain rfl := Option.some.inj e
  have hd : 0 < 2 ^ b.params.k - minRows.getD 0 := by omega
  dsimp only
  refine ⟨rfl, rfl, rfl, by simp, by simp [hi.lk3], fun i n hn => ?_, fun i n hn => ?_, ?_⟩
  · rw [List.getElem?_map, Option.map_eq_some_iff] at hn
    obtain ⟨pm, hp, rfl⟩ := hn
    have ht : b.threadsOf i = pm.threads := by simp [Builder.threadsOf, hp]
    rw [ht]
    exact div_spec hd
  · rw [List.getElem?_map, Option.map_eq_some_iff] at hn
    obtain ⟨m, hm, rfl⟩ := hn
    have hlen : m.all.length = ((b.threadsOf i).map fun t => t.lookups.length).sum := by
      rw [hi.lookups i m hm, addLookups_length]
      simp [Buckets.all, List.length_flatMap, lookupLog, Function.comp_def]
    rw [← hlen]
    exact div_spec hd
  · rw [List.toFinset_eq_of_perm _ _ ((C78_constraints_kept hb).2.map _)]
    exact div_spec (by positivity)

/-! ## A history -/

/-- Two columns, a call that exposes, a `clear`, two values exposed again, `k` set twice. -/
example : ∃ b : Builder 101, Hist [.setInstanceColumns 2, .setK 4, .expose 0 ⟨.trivial 1, none⟩, .clear, .expose 1 ⟨.trivial 2, none⟩,
      .setK 5, .expose 1 ⟨.trivial 3, none⟩] (Builder.new false) b ∧
    b.instances.map (List.map (·.value)) = [[], [.trivial 2, .trivial 3]] ∧ b.params.k = 5 ∧ b.params.numInst = 2 := by
  refine ⟨_, .cons trivial rfl (.cons trivial rfl (.cons trivial rfl (.cons trivial rfl (.cons trivial rfl (.cons trivial rfl
    (.cons trivial rfl (.nil _))))))), rfl, rfl, rfl⟩

end H2.Bld
