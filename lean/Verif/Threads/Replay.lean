import Verif.Threads.BuilderInv
import Verif.Threads.Resynth

/-! # A cleared builder behaves like a new one -/

set_option autoImplicit false
set_option linter.unusedSectionVars false
namespace H2.Bld
open H2 Phys
variable {p : ℕ}

/-- `b'` agrees with `b` in everything except the number of (empty) phases, the break points and the `unknown` flags. -/
structure Sim (b b' : Builder p) : Prop where
  wgo : b'.wgo = b.wgo
  cm : b'.cm = b.cm
  lookups : b'.lookups = b.lookups
  params : b'.params = b.params
  instances : b'.instances = b.instances
  threads : ∀ i, b'.threadsOf i = b.threadsOf i
  len : b.phases.length ≤ b'.phases.length

theorem touch_length (b : Builder p) (n : ℕ) : (b.touch n).phases.length = max b.phases.length (n + 1) := by
  simp only [Builder.touch, List.length_append, List.length_map, List.length_range']
  omega

theorem Sim.touch {b b' : Builder p} (h : Sim b b') (hb : BInv b) (hb' : BInv b') (n : ℕ) : Sim (b.touch n) (b'.touch n) :=
  ⟨h.wgo, h.cm, h.lookups, h.params, h.instances, fun i => by rw [touch_threadsOf hb', touch_threadsOf hb, h.threads],
    by rw [touch_length, touch_length]; have := h.len; omega⟩

theorem setThreads_threadsOf (b : Builder p) (i : ℕ) (ts : List (Ctx p)) (hi : i < b.phases.length) (k : ℕ) :
    (b.setThreads i ts).threadsOf k = if i = k then ts else b.threadsOf k := by
  simp only [Builder.threadsOf, Builder.setThreads]
  rw [List.getElem?_modify]
  split
  · subst k; rw [List.getElem?_eq_getElem hi]; rfl
  · simp

theorem Sim.set {b b' : Builder p} (h : Sim b b') {i : ℕ} (hi : i < b.phases.length) (ts : List (Ctx p)) (cm : CopyMgr p)
    (lk : List (Buckets p)) : Sim { b.setThreads i ts with cm := cm, lookups := lk } { b'.setThreads i ts with cm := cm, lookups := lk } where
  wgo := h.wgo
  cm := rfl
  lookups := rfl
  params := h.params
  instances := h.instances
  threads := by
    intro k
    have h1 := setThreads_threadsOf b i ts hi k
    have h2 := setThreads_threadsOf b' i ts (by have := h.len; omega) k
    rw [h.threads, ← h1] at h2
    exact h2
  len := by simpa [Builder.setThreads] using h.len

theorem Sim.get {b b' : Builder p} (h : Sim b b') (hb : BInv b) (hb' : BInv b') {i : ℕ} {pm : PhaseMgr p} (hp : b.phases[i]? = some pm) :
    ∃ pm', b'.phases[i]? = some pm' ∧ pm'.threads = pm.threads ∧ pm'.phase = pm.phase ∧ pm'.wgo = pm.wgo := by
  have hi := (List.getElem?_eq_some_iff.1 hp).1
  have h' := List.getElem?_eq_getElem (show i < b'.phases.length by have := h.len; omega)
  refine ⟨_, h', ?_, ?_, ?_⟩
  · have := h.threads i
    unfold Builder.threadsOf at this
    rw [h', hp] at this
    exact this
  · rw [(hb.pm i _ hp).1, (hb'.pm i _ h').1]
  · rw [(hb.pm i _ hp).2.1, (hb'.pm i _ h').2.1, h.wgo]

theorem Sim.absorb {b b' : Builder p} (h : Sim b b') {i : ℕ} (hi : i < b.phases.length) (ts : List (Ctx p)) (s s' : Ctx p) :
    Sim ((b.setThreads i ts).absorb s s') ((b'.setThreads i ts).absorb s s') := by
  have := h.set hi ts ((b.setThreads i ts).absorb s s').cm ((b.setThreads i ts).absorb s s').lookups
  have e : (b'.setThreads i ts).absorb s s' = { b'.setThreads i ts with
      cm := ((b.setThreads i ts).absorb s s').cm, lookups := ((b.setThreads i ts).absorb s s').lookups } := by
    simp only [Builder.absorb, Builder.setThreads, h.cm, h.lookups]
  rw [e]
  exact this

theorem Sim.newThread {α : Type} {b b' c : Builder p} (h : Sim b b') (hb : BInv b) (hb' : BInv b') {ph : ℕ} {m : M p α} {r : α}
    (e : b.newThread ph m = some (r, c)) : ∃ c', b'.newThread ph m = some (r, c') ∧ Sim c c' := by
  simp only [Builder.newThread, Option.bind_eq_bind, Option.bind_eq_some_iff, Option.pure_def, Option.some.injEq, Prod.mk.injEq] at e ⊢
  obtain ⟨pm, hp, s, hs, ⟨r', s'⟩, hrun, rfl, rfl⟩ := e
  have ht := h.touch hb hb' ph
  obtain ⟨pm', hp', e1, e2, e3⟩ := ht.get (hb.touch ph) (hb'.touch ph) hp
  refine ⟨_, ⟨pm', hp', s, ?_, _, hrun, rfl, rfl⟩, ?_⟩
  · unfold PhaseMgr.newContext at hs ⊢
    rw [e1, e2, e3]; exact hs
  · dsimp only
    rw [e1]
    exact ht.absorb (List.getElem?_eq_some_iff.1 hp).1 _ _ _

theorem touch_of_lt (b : Builder p) (n : ℕ) (h : n < b.phases.length) : b.touch n = b := by
  unfold Builder.touch
  rw [show n + 1 - b.phases.length = 0 by omega]
  simp

theorem touch_touch (b : Builder p) (n : ℕ) : (b.touch n).touch n = b.touch n :=
  touch_of_lt _ _ (by rw [touch_length]; omega)

theorem Sim.main {α : Type} {b b' c : Builder p} (h : Sim b b') (hb : BInv b) (hb' : BInv b') {ph : ℕ} {m : M p α} {r : α}
    (e : b.main ph m = some (r, c)) : ∃ c', b'.main ph m = some (r, c') ∧ Sim c c' := by
  simp only [Builder.main, Option.bind_eq_bind, Option.bind_eq_some_iff] at e ⊢
  obtain ⟨pm, hp, e⟩ := e
  have ht := h.touch hb hb' ph
  obtain ⟨pm', hp', e1, e2, e3⟩ := ht.get (hb.touch ph) (hb'.touch ph) hp
  cases hl : pm.threads.getLast? with
  | none =>
    rw [hl] at e
    obtain ⟨c', h1, h2⟩ := ht.newThread (hb.touch ph) (hb'.touch ph) e
    refine ⟨c', ⟨pm', hp', ?_⟩, h2⟩
    rw [e1, hl]; exact h1
  | some s =>
    rw [hl] at e
    simp only [Option.bind_eq_some_iff, Option.pure_def, Option.some.injEq, Prod.mk.injEq] at e
    obtain ⟨⟨r', s'⟩, hrun, rfl, rfl⟩ := e
    refine ⟨((b'.touch ph).setThreads ph (pm.threads.dropLast ++ [s'])).absorb s s', ⟨pm', hp', ?_⟩, ?_⟩
    · rw [e1, hl]
      simp only [Option.bind_eq_some_iff, Option.pure_def, Option.some.injEq, Prod.mk.injEq]
      exact ⟨_, hrun, rfl, rfl⟩
    · exact ht.absorb (List.getElem?_eq_some_iff.1 hp).1 _ _ _

theorem Sim.parallel {T R : Type} {b b' c : Builder p} (h : Sim b b') (hb : BInv b) (hb' : BInv b') {ph : ℕ} {input : List T} {f : T → M p R}
    {rs : List R} (e : b.Parallel ph input f rs c) : ∃ c', b'.Parallel ph input f rs c' ∧ Sim c c' := by
  obtain ⟨pm, t, ss, eqs, consts, queued, hp, ht, hrun, he, hc, hq, rfl⟩ := e
  obtain ⟨pm', hp', e1, e2, e3⟩ := h.get hb hb' hp
  refine ⟨_, ⟨pm', t, ss, eqs, consts, queued, hp', by rw [e2]; exact ht, by rw [e1, e2, e3]; exact hrun, he, hc, hq, rfl⟩, ?_⟩
  rw [e1, h.cm, h.lookups]
  exact h.set (List.getElem?_eq_some_iff.1 hp).1 _ _ _

/-- Calls that build the circuit (as opposed to configuring or laying it out). -/
def Op.Building : Op p → Prop
  | .main .. | .newThread .. | .parallelize .. | .expose .. | .setK .. | .setLookupBits .. | .setInstanceColumns .. | .setParams .. => True
  | _ => False

theorem Sim.setInst {b b' c : Builder p} (h : Sim b b') {n : ℕ} (e : b.setInstanceColumns n = some c) :
    ∃ c', b'.setInstanceColumns n = some c' ∧ Sim c c' := by
  simp only [Builder.setInstanceColumns, h.instances] at e ⊢
  split at e
  · rename_i hn
    simp only [Option.some.injEq] at e; subst e
    rw [if_pos hn, h.params]
    exact ⟨_, rfl, h.wgo, h.cm, h.lookups, rfl, rfl, h.threads, h.len⟩
  · cases e

theorem Sim.step {op : Op p} (hop : op.Building) {b b' c : Builder p} (h : Sim b b') (hb : BInv b) (hb' : BInv b') (st : op.Step b c) :
    ∃ c', op.Step b' c' ∧ Sim c c' := by
  cases op with
  | main ph m => obtain ⟨r, e⟩ := st; obtain ⟨c', h1, h2⟩ := h.main hb hb' e; exact ⟨c', ⟨r, h1⟩, h2⟩
  | newThread ph m => obtain ⟨r, e⟩ := st; obtain ⟨c', h1, h2⟩ := h.newThread hb hb' e; exact ⟨c', ⟨r, h1⟩, h2⟩
  | parallelize ph input f => obtain ⟨rs, e⟩ := st; obtain ⟨c', h1, h2⟩ := h.parallel hb hb' e; exact ⟨c', ⟨rs, h1⟩, h2⟩
  | expose k a =>
    simp only [Op.Step, Builder.expose, h.instances] at st ⊢
    split at st
    · rename_i hk
      simp only [Option.some.injEq] at st; subst st
      rw [if_pos hk]
      exact ⟨_, rfl, h.wgo, h.cm, h.lookups, h.params, rfl, h.threads, h.len⟩
    · cases st
  | setInstanceColumns n => exact h.setInst st
  | setParams ps =>
    simp only [Op.Step, Builder.setParams] at st ⊢
    obtain ⟨b1, e, rfl⟩ := Option.map_eq_some_iff.1 st
    obtain ⟨c', h1, h2⟩ := h.setInst e
    rw [h1]
    exact ⟨_, rfl, h2.wgo, h2.cm, h2.lookups, rfl, h2.instances, h2.threads, h2.len⟩
  | setK k =>
    rw [show c = b.setK k from st]
    exact ⟨b'.setK k, rfl, h.wgo, h.cm, h.lookups, by simp [Builder.setK, h.params], h.instances, h.threads, h.len⟩
  | setLookupBits k =>
    rw [show c = b.setLookupBits k from st]
    exact ⟨b'.setLookupBits k, rfl, h.wgo, h.cm, h.lookups, by simp [Builder.setLookupBits, h.params], h.instances, h.threads, h.len⟩
  | calculateParams m => exact hop.elim
  | setBreakPoints bps => exact hop.elim
  | unknown u => exact hop.elim
  | clear => exact hop.elim
  | synthesize mr us => exact hop.elim

theorem building_bps {op : Op p} (hop : op.Building) {b c : Builder p} (st : op.Step b c) (hb : 0 < b.phases.length) :
    (c.phases[0]?).map (·.bps) = (b.phases[0]?).map (·.bps) := by
  have htouch : ∀ n, ((b.touch n).phases[0]?).map (·.bps) = (b.phases[0]?).map (·.bps) := by
    intro n; simp only [Builder.touch]; rw [List.getElem?_append_left hb]
  have hset : ∀ (d : Builder p) (i : ℕ) (ts : List (Ctx p)), ((d.setThreads i ts).phases[0]?).map (·.bps) = (d.phases[0]?).map (·.bps) := by
    intro d i ts
    simp only [Builder.setThreads]
    rw [List.getElem?_modify]
    cases d.phases[0]? with
    | none => rfl
    | some pm => simp only [Option.map_some]; split <;> rfl
  have hnew : ∀ {α : Type} {ph : ℕ} {m : M p α} {r : α} {d c : Builder p}, d.newThread ph m = some (r, c) →
      (c.phases[0]?).map (·.bps) = ((d.touch ph).phases[0]?).map (·.bps) := by
    intro α ph m r d c e
    simp only [Builder.newThread, Option.bind_eq_bind, Option.bind_eq_some_iff, Option.pure_def, Option.some.injEq, Prod.mk.injEq] at e
    obtain ⟨pm, hp, s, hs, ⟨r', s'⟩, hrun, rfl, rfl⟩ := e
    exact hset _ _ _
  cases op with
  | main ph m =>
    obtain ⟨r, e⟩ := st
    simp only [Builder.main, Option.bind_eq_bind, Option.bind_eq_some_iff] at e
    obtain ⟨pm, hp, e⟩ := e
    cases hl : pm.threads.getLast? with
    | none => rw [hl] at e; have := hnew e; rw [touch_touch] at this; rw [this, htouch]
    | some s =>
      rw [hl] at e
      simp only [Option.bind_eq_some_iff, Option.pure_def, Option.some.injEq, Prod.mk.injEq] at e
      obtain ⟨⟨r', s'⟩, hrun, rfl, rfl⟩ := e
      rw [← htouch ph]
      exact hset _ _ _
  | newThread ph m => obtain ⟨r, e⟩ := st; rw [hnew e, htouch]
  | parallelize ph input f =>
    obtain ⟨rs, pm, t, ss, eqs, consts, queued, hp, ht, hrun, he, hc, hq, rfl⟩ := st
    exact hset _ _ _
  | expose k a =>
    simp only [Op.Step, Builder.expose] at st
    split at st
    · simp only [Option.some.injEq] at st; subst st; rfl
    · cases st
  | setInstanceColumns n =>
    simp only [Op.Step, Builder.setInstanceColumns] at st
    split at st
    · simp only [Option.some.injEq] at st; subst st; rfl
    · cases st
  | setParams ps =>
    simp only [Op.Step, Builder.setParams] at st
    obtain ⟨b1, e, rfl⟩ := Option.map_eq_some_iff.1 st
    simp only [Builder.setInstanceColumns] at e
    split at e
    · simp only [Option.some.injEq] at e; subst e; rfl
    · cases e
  | setK k => rw [show c = b.setK k from st]; rfl
  | setLookupBits k => rw [show c = b.setLookupBits k from st]; rfl
  | calculateParams m => exact hop.elim
  | setBreakPoints bps => exact hop.elim
  | unknown u => exact hop.elim
  | clear => exact hop.elim
  | synthesize mr us => exact hop.elim

theorem Sim.hist {ops : List (Op p)} {b b' c : Builder p} (hops : ∀ op ∈ ops, op.Building) (k : Hist ops b c) :
    BInv b → BInv b' → Sim b b' → ∃ c', Hist ops b' c' ∧ Sim c c' ∧ (c'.phases[0]?).map (·.bps) = (b'.phases[0]?).map (·.bps) ∧
      (c.phases[0]?).map (·.bps) = (b.phases[0]?).map (·.bps) := by
  induction k generalizing b' with
  | nil b => exact fun _ _ h => ⟨b', .nil b', h, rfl, rfl⟩
  | @cons op ops b b1 c ok st _ ih =>
    intro hb hb' h
    have hop := hops op (List.mem_cons_self ..)
    obtain ⟨b1', st', h1⟩ := h.step hop hb hb' st
    obtain ⟨c', k', h2, h3, h4⟩ := ih (fun o ho => hops o (List.mem_cons_of_mem _ ho)) (hb.step ok st) (hb'.step ok st') h1
    exact ⟨c', .cons ok st' k', h2, h3.trans (building_bps hop st' hb'.ne), h4.trans (building_bps hop st hb.ne)⟩

/-- A new builder with the settings of `b`. -/
def Builder.fresh (b : Builder p) : Builder p :=
  { Builder.new b.wgo with params := b.params, instances := List.replicate b.params.numInst [] }

theorem BInv.fresh (b : Builder p) : BInv b.fresh := by
  refine (BInv.new b.wgo).of_same rfl (same_refl _) (List.Perm.refl _) (List.Perm.refl _) rfl ?_
  simp [Builder.fresh]

theorem sim_clear {b : Builder p} (h : BInv b) : Sim b.fresh b.clear where
  wgo := rfl
  cm := rfl
  lookups := by
    simp only [Builder.clear, Builder.fresh, Builder.new]
    rw [← h.lk3]; simp
  params := rfl
  instances := by simp [Builder.clear, Builder.fresh, h.inst]
  threads := by
    intro i
    have h1 : b.clear.threadsOf i = [] := by
      simp only [Builder.threadsOf, Builder.clear, List.getElem?_map]
      cases b.phases[i]? <;> rfl
    have h2 : b.fresh.threadsOf i = [] := by
      cases i <;> simp [Builder.threadsOf, Builder.fresh, Builder.new, PhaseMgr.new]
    rw [h1, h2]
  len := by
    simp only [Builder.fresh, Builder.new, Builder.clear, List.length_map, List.length_singleton]
    exact h.ne

end H2.Bld
