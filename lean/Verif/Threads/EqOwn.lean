import Verif.KecComp.Circuit
import Lean.Elab.Tactic
import Lean.Elab.Command

/-!
# Routines whose copy constraints always involve a cell of the context

`eo_auto f` proves `EqOwn (f ..)` for all arguments, under the name `f_eo`; the proof is an ordinary term checked by the kernel.
-/

set_option autoImplicit false
namespace H2.EqO
open H2 Lean Elab Tactic Meta Command
variable {p : ℕ}

/-- Every equality added by the routine has a cell of the context on one side (true of all of `Context` but `constrain_equal`). -/
def EqOwn {α : Type} (m : M p α) : Prop := ∀ s r s', m s = some (r, s') → s'.typeId = s.typeId ∧ s'.ctxId = s.ctxId ∧
  ∀ e ∈ s'.eqs, e ∈ s.eqs ∨ Own s e.1 ∨ Own s e.2

theorem EqOwn.pure {α : Type} (a : α) : EqOwn (Pure.pure a : M p α) := by
  intro s r s' h
  simp only [pure_apply, Option.some.injEq, Prod.mk.injEq] at h
  obtain ⟨-, rfl⟩ := h
  exact ⟨rfl, rfl, fun e he => .inl he⟩

theorem EqOwn.bind {α β : Type} {m : M p α} {f : α → M p β} (h : EqOwn m) (h' : ∀ a, EqOwn (f a)) : EqOwn (m >>= f) := by
  intro s r s2 hr
  obtain ⟨a, s1, h1, h2⟩ := bind_some.1 hr
  obtain ⟨t1, c1, e1⟩ := h s a s1 h1
  obtain ⟨t2, c2, e2⟩ := h' a s1 r s2 h2
  refine ⟨t2.trans t1, c2.trans c1, fun e he => ?_⟩
  rcases e2 e he with h | h | h
  · exact e1 e h
  · exact .inr (.inl ⟨h.1.trans t1, h.2.trans c1⟩)
  · exact .inr (.inr ⟨h.1.trans t1, h.2.trans c1⟩)

theorem EqOwn.read {α : Type} {m : M p α} (h : ∀ s r s', m s = some (r, s') → s' = s) : EqOwn m := by
  intro s r s' hr
  rw [h s r s' hr]
  exact ⟨rfl, rfl, fun e he => .inl he⟩

/-- A step that leaves the equalities. -/
theorem EqOwn.of_eqs {α : Type} {m : M p α} (h : ∀ s r s', m s = some (r, s') → s'.typeId = s.typeId ∧ s'.ctxId = s.ctxId ∧ s'.eqs = s.eqs) : EqOwn m := by
  intro s r s' hr
  obtain ⟨a, b, c⟩ := h s r s' hr
  exact ⟨a, b, fun e he => .inl (c ▸ he)⟩

theorem panic_eo {α : Type} : EqOwn (panic : M p α) := .read fun s r s' h => by simp [panic] at h
theorem unwrap_eo {α : Type} (o : Option α) : EqOwn (unwrap o : M p α) := .read fun s r s' h => by
  simp only [unwrap, Option.map_eq_some_iff, Prod.mk.injEq] at h
  obtain ⟨_, _, _, h⟩ := h; exact h.symm
theorem assertM_eo (c : Bool) : EqOwn (assertM c : M p Unit) := .read fun s r s' h => by
  simp only [assertM] at h; split at h
  · simp only [Option.some.injEq, Prod.mk.injEq, true_and] at h; exact h.symm
  · cases h
theorem getWgo_eo : EqOwn (getWgo : M p Bool) := .read fun s r s' h => by
  simp only [getWgo, Option.some.injEq, Prod.mk.injEq] at h; exact h.2.symm
theorem last?_eo : EqOwn (last? : M p _) := .read fun s r s' h => by
  simp only [last?, Option.some.injEq, Prod.mk.injEq] at h; exact h.2.symm
theorem getM_eo (o : ℤ) : EqOwn (getM o : M p (AV p)) := .read fun s r s' h => by
  unfold getM at h
  dsimp only at h
  generalize (if o < 0 then (s.advice.length : ℤ) + o else o) = i at h
  split at h
  · cases h
  · simp only [Option.map_eq_some_iff, Prod.mk.injEq] at h
    obtain ⟨_, _, _, h⟩ := h; exact h.symm

theorem assignCell_eo (q : QCell p) : EqOwn (assignCell q) := by
  intro s r s' h
  unfold assignCell at h
  split at h
  · split at h
    · simp only [Option.some.injEq, Prod.mk.injEq, true_and] at h; subst h; exact ⟨rfl, rfl, fun e he => .inl he⟩
    · simp only [Option.map_eq_some_iff, Prod.mk.injEq, true_and] at h
      obtain ⟨c, -, rfl⟩ := h
      refine ⟨rfl, rfl, fun e he => ?_⟩
      rcases List.mem_append.1 he with he | he
      · exact .inl he
      · rw [List.mem_singleton.1 he]; exact .inr (.inl ⟨rfl, rfl⟩)
  · simp only [Option.some.injEq, Prod.mk.injEq, true_and] at h; subst h; exact ⟨rfl, rfl, fun e he => .inl he⟩
  · simp only [Option.some.injEq, Prod.mk.injEq, true_and] at h; subst h; exact ⟨rfl, rfl, fun e he => .inl he⟩
  · split at h <;> (simp only [Option.some.injEq, Prod.mk.injEq, true_and] at h; subst h; exact ⟨rfl, rfl, fun e he => .inl he⟩)

theorem assignCells_eo : ∀ qs : List (QCell p), EqOwn (assignCells qs)
  | [] => EqOwn.pure _
  | q :: qs => (assignCell_eo q).bind fun _ => assignCells_eo qs

theorem enableGates_eo (row : ℕ) : ∀ gs : List ℤ, EqOwn (enableGates row gs : M p Unit)
  | [] => EqOwn.pure _
  | g :: gs => EqOwn.bind (EqOwn.of_eqs fun s r s' h => by
      dsimp only at h
      split at h
      · simp only [Option.some.injEq, Prod.mk.injEq, true_and] at h; subst h; exact ⟨rfl, rfl, rfl⟩
      · cases h) fun _ => enableGates_eo row gs

theorem syncSelector_eo : EqOwn (syncSelector : M p Unit) := EqOwn.of_eqs fun s r s' h => by
  simp only [syncSelector, Option.some.injEq, Prod.mk.injEq, true_and] at h
  subst h
  split <;> exact ⟨rfl, rfl, rfl⟩

theorem assignRegion_eo (qs : List (QCell p)) (gs : List ℤ) : EqOwn (assignRegion qs gs) := by
  intro s r s' h
  unfold assignRegion at h
  split at h
  · exact assignCells_eo qs s r s' h
  · exact ((assignCells_eo qs).bind fun _ => EqOwn.bind (m := (fun s => some ((), { s with selector := resize s.selector s.advice.length }) : M p Unit))
      (EqOwn.of_eqs fun s r s' h => by
        simp only [Option.some.injEq, Prod.mk.injEq, true_and] at h
        subst h; exact ⟨rfl, rfl, rfl⟩) fun _ => enableGates_eo s.advice.length gs) s r s' h

theorem smartEqs_eo (row : ℕ) (eo : List (ℕ × ℕ)) (x : List (Cell × ℕ)) : EqOwn (smartEqs row eo x : M p Unit) := by
  intro s r s' h
  simp only [smartEqs, Option.some.injEq, Prod.mk.injEq, true_and] at h
  subst h
  refine ⟨rfl, rfl, fun e he => ?_⟩
  simp only [List.mem_append, List.mem_map] at he
  rcases he with (he | ⟨a, -, rfl⟩) | ⟨a, -, rfl⟩
  · exact .inl he
  · exact .inr (.inl ⟨rfl, rfl⟩)
  · exact .inr (.inr ⟨rfl, rfl⟩)

theorem assignRegionSmart_eo (qs : List (QCell p)) (gs : List ℤ) (eo : List (ℕ × ℕ)) (x : List (Cell × ℕ)) : EqOwn (assignRegionSmart qs gs eo x) := by
  intro s r s' h
  unfold assignRegionSmart at h
  refine ((assignRegion_eo qs gs).bind fun _ => ?_) s r s' h
  split
  · exact EqOwn.pure _
  · exact smartEqs_eo _ _ _

attribute [irreducible] EqOwn

/-- The name of the lemma about `f`. -/
def eoName (f : Name) : Name := `H2.EqO ++ Name.mkSimple (toString (f.replacePrefix `H2 .anonymous) ++ "_eo")

/-- Closes `EqOwn (f ..)` by the lemma `f_eo`. -/
elab "eo_known" : tactic => withMainContext do
  let t ← instantiateMVars (← getMainTarget)
  let m := t.consumeMData.getAppArgs.back!
  let some f := m.consumeMData.getAppFn.constName? | throwError "no head"
  let gs ← (← getMainGoal).apply (← mkConstWithFreshMVarLevels (eoName f))
  replaceMainGoal gs

/-- `EqOwn` of a `do` block. -/
macro "eo" : tactic => `(tactic| repeat' (first
  | intro _
  | assumption
  | with_reducible exact EqOwn.pure _
  | eo_known
  | with_reducible apply EqOwn.bind
  | (split)
  | (dsimp only)
  | solve_by_elim))

/-- `eo_auto f` proves `theorem f_eo : EqOwn (f ..)`. -/
elab "eo_auto " fs:ident+ : command => do
  for id in fs do
    liftTermElabM do
      let f ← realizeGlobalConstNoOverloadWithInfo id
      let info ← getConstInfo f
      let lvls := info.levelParams.map Level.param
      let fe := mkConst f lvls
      forallTelescope info.type fun xs _ => do
        let e := mkAppN fe xs
        let stmt ← mkAppM ``EqOwn #[e]
        let goalTy ← mkForallFVars xs stmt
        let fid := mkIdent f
        let ctor ← `(by intros; first | (unfold $fid; eo; done) | (fun_induction $fid <;> (eo; done)))
        let v ← Term.elabTermEnsuringType ctor goalTy
        Term.synthesizeSyntheticMVarsNoPostponing
        let v ← instantiateMVars v
        let nm := eoName f
        addDecl <| .thmDecl { name := nm, levelParams := info.levelParams, type := goalTy, value := v }

eo_auto H2.lastM H2.loadConstant

theorem loadZero_eo : EqOwn (loadZero : M p (AV p)) := by
  unfold EqOwn
  intro s r s' h
  unfold loadZero at h
  split at h
  · simp only [Option.some.injEq, Prod.mk.injEq] at h
    rw [← h.2]; exact ⟨rfl, rfl, fun e he => .inl he⟩
  · have h0 := ((loadConstant_eo (p := p) 0).bind fun z => EqOwn.bind (m := (fun s => some ((), { s with zeroCell := some z }) : M p Unit))
      (EqOwn.of_eqs fun s r s' h => by
        simp only [Option.some.injEq, Prod.mk.injEq, true_and] at h
        subst h; exact ⟨rfl, rfl, rfl⟩) fun _ => EqOwn.pure z)
    unfold EqOwn at h0
    exact h0 s r s' h

eo_auto H2.loadConstants H2.pDefault H2.assignRegionLast H2.mul H2.mulAdd H2.pow5c H2.sboxFull H2.ipBody H2.ipCells H2.ipRegion H2.innerProductSimple H2.innerProduct H2.applyMds H2.fullRounds H2.sboxPart H2.sparseTail H2.applySparse H2.partRounds H2.permRounds H2.padInputs H2.add H2.addConsts H2.sub H2.dec H2.isZero H2.isEqual H2.idxToIndicatorLoop H2.idxToIndicator H2.sumBody H2.getsM H2.partialSums H2.maskBytes H2.absorbVarLoop H2.not H2.absorbVarEnd H2.absorbVar H2.sum H2.absorbRest H2.absorbTail H2.absorb H2.permutation H2.absorbChunks H2.squeezeEnd H2.fixLenSqueeze H2.Hasher.init H2.KC.ipResized H2.KC.packLoop H2.KC.packInputs H2.select H2.stateSelect H2.chunkLoop H2.Hasher.hashChunks H2.KC.encodeInputs H2.KC.outputLoop H2.KC.finalOutputs H2.Hasher.hashFixLen H2.KC.publishOutputs H2.KC.shardProg

/-- The context with cells outside `dom`: a routine that runs the same whatever the value of the other foreign cells only refers to its own cells and to
cells of `dom`.  (`ext x` gives the foreign cells outside `dom` the value `x`.) -/
theorem refs_of_good [Fact p.Prime] {tbl : ZMod p → Prop} {dom : Cell → Prop} {ext : ZMod p → Cell → ZMod p} (hext : ∀ x c, ¬ dom c → ext x c = x) {s : Ctx p}
    (hg : ∀ x, Good tbl (ext x) s) (hown : ∀ e ∈ s.eqs, Own s e.1 ∨ Own s e.2) :
    (∀ e ∈ s.eqs, (Own s e.1 ∨ dom e.1) ∧ (Own s e.2 ∨ dom e.2)) ∧ ∀ e ∈ s.consts, Own s e.2 ∨ dom e.2 := by
  have key : ∀ c, ¬ Own s c → ¬ dom c → ∀ x, hw (ext x) s c = x := fun c h1 h2 x => by rw [hw, if_neg h1, hext x c h2]
  have own : ∀ c, Own s c → ∀ x, hw (ext x) s c = valAt s c.offset := fun c h x => by rw [hw, if_pos h]
  refine ⟨fun e he => ?_, fun e he => ?_⟩
  · have h1 := fun x => (hg x).sat.eq e he
    constructor
    · by_contra hc
      rw [not_or] at hc
      have h2 := (hown e he).resolve_left hc.1
      have a0 := h1 0
      have a1 := h1 1
      rw [key _ hc.1 hc.2, own _ h2] at a0 a1
      exact zero_ne_one (a0.trans a1.symm)
    · by_contra hc
      rw [not_or] at hc
      have h2 := (hown e he).resolve_right hc.1
      have a0 := h1 0
      have a1 := h1 1
      rw [key _ hc.1 hc.2, own _ h2] at a0 a1
      exact zero_ne_one (a0.symm.trans a1)
  · by_contra hc
    rw [not_or] at hc
    have a0 := (hg 0).sat.const e he
    have a1 := (hg 1).sat.const e he
    rw [key _ hc.1 hc.2] at a0 a1
    exact zero_ne_one (a0.trans a1.symm)

theorem con_refs [Fact p.Prime] {dom : Cell → Prop} {ext : ZMod p → Cell → ZMod p} (hext : ∀ x c, ¬ dom c → ext x c = x) {s : Ctx p} {a : AV p} {y : ZMod p → ZMod p}
    (h : ∀ x, Con (ext x) s a (y x)) (hy : y 0 = y 1) : ∃ c, a.cell = some c ∧ Valid s c ∧ (Own s c ∨ dom c) := by
  obtain ⟨-, c, hc, hv, h0⟩ := h 0
  obtain ⟨-, c', hc', -, h1⟩ := h 1
  rw [hc, Option.some.injEq] at hc'
  subst hc'
  refine ⟨c, hc, hv, ?_⟩
  by_contra hn
  rw [not_or] at hn
  rw [hw, if_neg hn.1, hext _ _ hn.2] at h0 h1
  rw [← h0, ← h1] at hy
  exact zero_ne_one hy

end H2.EqO
