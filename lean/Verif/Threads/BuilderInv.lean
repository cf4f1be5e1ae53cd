import Verif.Threads.Builder

/-! # Invariants of builder histories -/

set_option autoImplicit false
set_option linter.unusedSectionVars false
namespace H2.Bld
open H2 Phys
variable {p : ℕ}

/-! ## Programs only append to a context -/

structure Grows (s s' : Ctx p) : Prop where
  typeId : s'.typeId = s.typeId
  ctxId : s'.ctxId = s.ctxId
  phase : s'.phase = s.phase
  wgo : s'.wgo = s.wgo
  advice : s.advice <+: s'.advice
  eqs : s.eqs <+: s'.eqs
  consts : s.consts <+: s'.consts
  lookups : s.lookups <+: s'.lookups

theorem Grows.refl (s : Ctx p) : Grows s s :=
  ⟨rfl, rfl, rfl, rfl, List.prefix_rfl, List.prefix_rfl, List.prefix_rfl, List.prefix_rfl⟩

theorem Grows.trans {s t u : Ctx p} (h : Grows s t) (k : Grows t u) : Grows s u :=
  ⟨k.typeId.trans h.typeId, k.ctxId.trans h.ctxId, k.phase.trans h.phase, k.wgo.trans h.wgo, h.advice.trans k.advice,
    h.eqs.trans k.eqs, h.consts.trans k.consts, h.lookups.trans k.lookups⟩

def Gr {α : Type} (m : M p α) : Prop := ∀ s r s', m s = some (r, s') → Grows s s'

theorem Gr.bind {α β : Type} {m : M p α} {f : α → M p β} (h : Gr m) (k : ∀ a, Gr (f a)) : Gr (m >>= f) := by
  intro s r s' e
  simp only [Bind.bind, StateT.bind, Option.bind_eq_some_iff] at e
  obtain ⟨⟨a, s1⟩, h1, h2⟩ := e
  exact (h _ _ _ h1).trans (k _ _ _ _ h2)

theorem Gr.read {α : Type} {m : M p α} (h : ∀ s r s', m s = some (r, s') → s' = s) : Gr m := fun s r s' e => by
  rw [h s r s' e]; exact .refl s

theorem Gr.pure {α : Type} (a : α) : Gr (pure a : M p α) := Gr.read fun s r s' e => by
  simp only [Pure.pure, StateT.pure, Option.some.injEq, Prod.mk.injEq] at e; exact e.2.symm

theorem gr_assignCell (q : QCell p) : Gr (assignCell q) := by
  intro s r s' e
  cases q with
  | existing a =>
    simp only [assignCell] at e
    split at e
    · simp only [Option.some.injEq, Prod.mk.injEq, true_and] at e; subst e
      constructor <;> first | rfl | simp
    · rw [Option.map_eq_some_iff] at e
      obtain ⟨c, _, e⟩ := e
      simp only [Prod.mk.injEq, true_and] at e; subst e
      constructor <;> first | rfl | simp
  | witness x =>
    simp only [assignCell, Option.some.injEq, Prod.mk.injEq, true_and] at e; subst e
    constructor <;> first | rfl | simp
  | witnessFraction x =>
    simp only [assignCell, Option.some.injEq, Prod.mk.injEq, true_and] at e; subst e
    constructor <;> first | rfl | simp
  | constant c =>
    simp only [assignCell] at e
    split at e <;> simp only [Option.some.injEq, Prod.mk.injEq, true_and] at e <;> subst e <;>
      constructor <;> first | rfl | simp

theorem gr_assignCells (qs : List (QCell p)) : Gr (assignCells qs) := by
  induction qs with
  | nil => exact Gr.pure _
  | cons q qs ih => exact (gr_assignCell q).bind fun _ => ih

theorem gr_enableGates (row : ℕ) (gs : List ℤ) : Gr (enableGates row gs : M p Unit) := by
  induction gs with
  | nil => exact Gr.pure _
  | cons g gs ih =>
    refine Gr.bind ?_ fun _ => ih
    intro s r s' e
    dsimp only at e
    split at e
    · simp only [Option.some.injEq, Prod.mk.injEq, true_and] at e; subst e
      constructor <;> first | rfl | exact List.prefix_rfl
    · cases e

theorem gr_same {f : Ctx p → Ctx p} (h : ∀ s, Grows s (f s)) : Gr (fun s => some ((), f s) : M p Unit) := by
  intro s r s' e
  simp only [Option.some.injEq, Prod.mk.injEq, true_and] at e; subst e; exact h s

theorem gr_assignRegion (qs : List (QCell p)) (gs : List ℤ) : Gr (assignRegion qs gs) := by
  intro s r s' e
  unfold assignRegion at e
  split at e
  · exact gr_assignCells qs _ _ _ e
  · refine Gr.bind (gr_assignCells qs) (fun _ => Gr.bind (gr_same fun s => ?_) fun _ => gr_enableGates _ _) _ _ _ e
    constructor <;> first | rfl | exact List.prefix_rfl

theorem gr_last : Gr (last? : M p _) := Gr.read fun s r s' e => by
  simp only [last?, Option.some.injEq, Prod.mk.injEq] at e; exact e.2.symm

theorem gr_unwrap {α : Type} (o : Option α) : Gr (unwrap o : M p α) := Gr.read fun s r s' e => by
  simp only [unwrap, Option.map_eq_some_iff, Prod.mk.injEq] at e
  obtain ⟨_, _, _, h⟩ := e; exact h.symm

theorem gr_lastM : Gr (lastM : M p _) := gr_last.bind fun _ => gr_unwrap _

theorem gr_sync : Gr (syncSelector : M p Unit) := gr_same fun s => by
  split
  · exact .refl s
  · constructor <;> first | rfl | exact List.prefix_rfl

theorem gr_loadConstant (c : ZMod p) : Gr (loadConstant c) := (gr_assignCell _).bind fun _ => gr_sync.bind fun _ => gr_lastM

theorem CtxProg.gr {α : Type} {m : M p α} (h : CtxProg m) : Gr m := by
  induction h with
  | pure a => exact Gr.pure a
  | bind _ _ h1 h2 => exact h1.bind h2
  | read h => exact Gr.read h
  | assignRegion qs gs => exact gr_assignRegion qs gs
  | assignRegionSmart qs gs e x =>
    intro s r s' h
    refine Gr.bind (gr_assignRegion qs gs) (fun _ => ?_) s r s' h
    split
    · exact Gr.pure _
    · exact gr_same fun s => by
        constructor <;> first | rfl | exact List.prefix_rfl | simp
  | constrainEqual a b =>
    intro s r s' e
    simp only [H2.constrainEqual] at e
    split at e
    · simp only [Option.some.injEq, Prod.mk.injEq, true_and] at e; subst e; exact .refl s
    · split at e
      · simp only [Option.some.injEq, Prod.mk.injEq, true_and] at e; subst e
        constructor <;> first | rfl | simp
      · cases e
  | assignWitnesses ws =>
    intro s r s' h
    refine Gr.bind (gr_assignRegion _ _) (fun _ => Gr.read ?_) s r s' h
    intro s r s' e
    simp only [Option.some.injEq, Prod.mk.injEq] at e; exact e.2.symm
  | loadWitness x => exact (gr_assignCell _).bind fun _ => gr_sync.bind fun _ => gr_lastM
  | loadConstant c => exact gr_loadConstant c
  | loadZero =>
    intro s r s' e
    unfold H2.loadZero at e
    split at e
    · simp only [Option.some.injEq, Prod.mk.injEq] at e; rw [← e.2]; exact .refl s
    · refine Gr.bind (gr_loadConstant 0) (fun _ => Gr.bind (gr_same fun s => ?_) fun _ => Gr.pure _) _ _ _ e
      constructor <;> first | rfl | exact List.prefix_rfl
  | assertIsConst a c =>
    intro s r s' e
    simp only [H2.assertIsConst] at e
    split at e
    · simp only [Option.some.injEq, Prod.mk.injEq, true_and] at e; subst e; exact .refl s
    · rw [Option.map_eq_some_iff] at e
      obtain ⟨c, _, e⟩ := e
      simp only [Prod.mk.injEq, true_and] at e; subst e
      constructor <;> first | rfl | simp
  | addCellToLookup a => exact gr_same fun s => by constructor <;> first | rfl | simp

/-! ## The invariant -/

/-- The contexts of one phase. -/
def Builder.threadsOf (b : Builder p) (i : ℕ) : List (Ctx p) := ((b.phases[i]?).map (·.threads)).getD []

/-- All contexts, in the order of phases. -/
def Builder.contexts (b : Builder p) : List (Ctx p) := b.phases.flatMap (·.threads)

/-- The context `t` is number `j` of phase `i`. -/
structure IsCtx (wgo : Bool) (i j : ℕ) (t : Ctx p) : Prop where
  type : typeOf i = some t.typeId
  id : t.ctxId = j
  phase : t.phase = i
  wgo : t.wgo = wgo

structure BInv (b : Builder p) : Prop where
  ne : 0 < b.phases.length
  lk3 : b.lookups.length = 3
  pm : ∀ (i : ℕ) pm, b.phases[i]? = some pm → pm.phase = i ∧ pm.wgo = b.wgo ∧
    ∀ (j : ℕ) t, pm.threads[j]? = some t → IsCtx b.wgo i j t
  eqs : b.cm.eqs.Perm (b.phases.flatMap fun pm => pm.threads.flatMap (·.eqs))
  consts : b.cm.consts.Perm (b.phases.flatMap fun pm => pm.threads.flatMap (·.consts))
  lookups : ∀ (i : ℕ) m, b.lookups[i]? = some m → m = addLookups [] ((b.threadsOf i).flatMap lookupLog)
  inst : b.instances.length = b.params.numInst

theorem addLookups_append (m : Buckets p) (a c : List (Tag × List (AV p))) : addLookups (addLookups m a) c = addLookups m (a ++ c) := by
  simp [addLookups, List.foldl_append]

theorem flatMap_modify {α β : Type} (g : α → List β) (f : α → α) (e : List β) : ∀ (l : List α) (i : ℕ) (a : α), l[i]? = some a →
    (g (f a)).Perm (g a ++ e) → ((l.modify i f).flatMap g).Perm (l.flatMap g ++ e)
  | [], i, a, h, _ => by simp at h
  | x :: l, 0, a, h, hg => by
    simp only [List.getElem?_cons_zero, Option.some.injEq] at h; subst h
    simp only [List.modify_zero_cons, List.flatMap_cons]
    refine (hg.append_right _).trans ?_
    rw [List.append_assoc, List.append_assoc]
    exact List.Perm.append_left _ List.perm_append_comm
  | x :: l, i + 1, a, h, hg => by
    simp only [List.getElem?_cons_succ] at h
    simp only [List.modify_succ_cons, List.flatMap_cons, List.append_assoc]
    exact List.Perm.append_left _ (flatMap_modify g f e l i a h hg)

theorem BInv.update {b : Builder p} (h : BInv b) {i : ℕ} {pm : PhaseMgr p} (hp : b.phases[i]? = some pm) {ts : List (Ctx p)}
    {e : List (Cell × Cell)} {c : List (ZMod p × Cell)} {q : List (Tag × List (AV p))}
    (hid : ∀ (j : ℕ) t, ts[j]? = some t → IsCtx b.wgo i j t)
    (he : (ts.flatMap (·.eqs)).Perm (pm.threads.flatMap (·.eqs) ++ e))
    (hc : (ts.flatMap (·.consts)).Perm (pm.threads.flatMap (·.consts) ++ c))
    (hq : addLookups (addLookups [] (pm.threads.flatMap lookupLog)) q = addLookups [] (ts.flatMap lookupLog)) :
    BInv { b.setThreads i ts with
      cm := { b.cm with eqs := b.cm.eqs ++ e, consts := b.cm.consts ++ c }
      lookups := b.lookups.modify i fun m => addLookups m q } where
  ne := by simpa [Builder.setThreads] using h.ne
  lk3 := by simpa using h.lk3
  pm := by
    intro k pm' hk
    simp only [Builder.setThreads] at hk ⊢
    rw [List.getElem?_modify] at hk
    obtain ⟨pm0, h0, rfl⟩ := Option.map_eq_some_iff.1 hk
    have := h.pm k pm0 h0
    by_cases hik : i = k
    · subst hik
      simp only [if_true]
      exact ⟨this.1, this.2.1, hid⟩
    · simp only [if_neg hik, id]; exact this
  eqs := by
    simp only [Builder.setThreads]
    refine (h.eqs.append_right e).trans (flatMap_modify _ _ e _ _ _ hp ?_).symm
    exact he
  consts := by
    simp only [Builder.setThreads]
    refine (h.consts.append_right c).trans (flatMap_modify _ _ c _ _ _ hp ?_).symm
    exact hc
  lookups := by
    intro k m hk
    rw [List.getElem?_modify] at hk
    obtain ⟨m0, h0, rfl⟩ := Option.map_eq_some_iff.1 hk
    have h1 := h.lookups k m0 h0
    have h2 : Builder.threadsOf { b.setThreads i ts with
      cm := { b.cm with eqs := b.cm.eqs ++ e, consts := b.cm.consts ++ c }
      lookups := b.lookups.modify i fun m => addLookups m q } k = if i = k then ts else b.threadsOf k := by
      simp only [Builder.threadsOf, Builder.setThreads]
      rw [List.getElem?_modify]
      split
      · subst k; rw [hp]; rfl
      · simp
    rw [h2]
    by_cases hik : i = k
    · subst hik
      simp only [if_true]
      rw [h1, ← hq, Builder.threadsOf, hp]; rfl
    · simp only [if_neg hik, id]; exact h1
  inst := h.inst

theorem touch_get {b : Builder p} (h : BInv b) (n : ℕ) {i : ℕ} {pm : PhaseMgr p} (hk : (b.touch n).phases[i]? = some pm) :
    b.phases[i]? = some pm ∨ (b.phases.length ≤ i ∧ pm = PhaseMgr.new b.wgo i) := by
  simp only [Builder.touch] at hk
  rw [List.getElem?_append] at hk
  split at hk
  · exact .inl hk
  · rename_i hlt
    rw [List.getElem?_map, Option.map_eq_some_iff] at hk
    obtain ⟨x, hx, rfl⟩ := hk
    rw [List.getElem?_eq_some_iff] at hx
    obtain ⟨hl, hx⟩ := hx
    rw [List.getElem_range'] at hx
    refine .inr ⟨by omega, ?_⟩
    congr 1; omega

theorem touch_threadsOf {b : Builder p} (h : BInv b) (n i : ℕ) : (b.touch n).threadsOf i = b.threadsOf i := by
  unfold Builder.threadsOf
  by_cases hi : i < b.phases.length
  · have : (b.touch n).phases[i]? = b.phases[i]? := by
      simp only [Builder.touch]; rw [List.getElem?_append_left hi]
    rw [this]
  · have e : b.phases[i]? = none := List.getElem?_eq_none (by omega)
    rw [e]
    cases hk : (b.touch n).phases[i]? with
    | none => rfl
    | some pm =>
      rcases touch_get h n hk with h1 | ⟨_, rfl⟩
      · rw [e] at h1; cases h1
      · rfl

theorem BInv.touch {b : Builder p} (h : BInv b) (n : ℕ) : BInv (b.touch n) where
  ne := by simp only [Builder.touch, List.length_append]; have := h.ne; omega
  lk3 := h.lk3
  pm := by
    intro i pm hk
    rcases touch_get h n hk with h1 | ⟨_, rfl⟩
    · exact h.pm i pm h1
    · refine ⟨rfl, rfl, fun j t ht => ?_⟩
      simp [PhaseMgr.new] at ht
  eqs := by
    refine h.eqs.trans (List.Perm.of_eq ?_)
    simp [Builder.touch, List.flatMap_append, List.flatMap_map, PhaseMgr.new]
  consts := by
    refine h.consts.trans (List.Perm.of_eq ?_)
    simp [Builder.touch, List.flatMap_append, List.flatMap_map, PhaseMgr.new]
  lookups := by
    intro i m hm
    rw [touch_threadsOf h]
    exact h.lookups i m hm
  inst := h.inst

theorem Grows.isCtx {s s' : Ctx p} (g : Grows s s') {w : Bool} {i j : ℕ} (h : IsCtx w i j s) : IsCtx w i j s' :=
  ⟨by rw [g.typeId]; exact h.type, g.ctxId.trans h.id, g.phase.trans h.phase, g.wgo.trans h.wgo⟩

theorem prefix_drop {α : Type} {l l' : List α} (h : l <+: l') : l' = l ++ l'.drop l.length := by
  obtain ⟨t, rfl⟩ := h; simp

theorem lookupLog_grows {s s' : Ctx p} (g : Grows s s') :
    lookupLog s' = lookupLog s ++ (s'.lookups.drop s.lookups.length).map fun a => (Ctx.tag s, [a]) := by
  have ht : Ctx.tag s' = Ctx.tag s := by simp [Ctx.tag, g.typeId, g.ctxId]
  unfold lookupLog
  rw [ht, ← List.map_append, ← prefix_drop g.lookups]

theorem newContext_eq {pm : PhaseMgr p} {id : ℕ} {s : Ctx p} (h : pm.newContext id = some s) :
    ∃ t, typeOf pm.phase = some t ∧ s = Ctx.new pm.wgo pm.phase t id [] [] := by
  unfold PhaseMgr.newContext at h
  obtain ⟨t, h1, rfl⟩ := Option.map_eq_some_iff.1 h
  exact ⟨t, h1, rfl⟩

theorem getElem?_snoc {α : Type} {l : List α} {a : α} {j : ℕ} {t : α} (h : (l ++ [a])[j]? = some t) :
    l[j]? = some t ∨ (j = l.length ∧ t = a) := by
  rw [List.getElem?_append] at h
  split at h
  · exact .inl h
  · right
    have : j - l.length = 0 := by
      by_contra hc
      rw [List.getElem?_eq_none (by simp; omega)] at h; cases h
    rw [this] at h
    simp at h
    exact ⟨by omega, h.symm⟩

theorem BInv.newThread {α : Type} {b b' : Builder p} (h : BInv b) {ph : ℕ} {m : M p α} (hm : CtxProg m) {r : α}
    (e : b.newThread ph m = some (r, b')) : BInv b' := by
  simp only [Builder.newThread, Option.bind_eq_bind, Option.bind_eq_some_iff, Option.pure_def, Option.some.injEq, Prod.mk.injEq] at e
  obtain ⟨pm, hp, s, hs, ⟨r', s'⟩, hrun, -, rfl⟩ := e
  obtain ⟨t, ht, rfl⟩ := newContext_eq hs
  have g := hm.gr _ _ _ hrun
  have h1 := h.touch ph
  have hpm := h1.pm ph pm hp
  have hphase : (Ctx.new pm.wgo pm.phase t pm.threads.length [] [] : Ctx p).phase = ph := hpm.1
  have := h1.update hp (ts := pm.threads ++ [s']) (e := s'.eqs.drop 0) (c := s'.consts.drop 0)
    (q := (s'.lookups.drop 0).map fun a => (Ctx.tag (Ctx.new pm.wgo pm.phase t pm.threads.length [] [] : Ctx p), [a])) ?_ ?_ ?_ ?_
  · unfold Builder.absorb
    rw [hphase]
    exact this
  · intro j t' hj
    rcases getElem?_snoc hj with hj | ⟨rfl, rfl⟩
    · exact hpm.2.2 j t' hj
    · exact g.isCtx ⟨by rw [← hpm.1]; exact ht, rfl, hpm.1, hpm.2.1⟩
  · simp
  · simp
  · rw [addLookups_append]
    congr 1
    rw [List.flatMap_append, List.flatMap_singleton, lookupLog_grows g]
    rfl

theorem BInv.main {α : Type} {b b' : Builder p} (h : BInv b) {ph : ℕ} {m : M p α} (hm : CtxProg m) {r : α}
    (e : b.main ph m = some (r, b')) : BInv b' := by
  simp only [Builder.main, Option.bind_eq_bind, Option.bind_eq_some_iff] at e
  obtain ⟨pm, hp, e⟩ := e
  have h1 := h.touch ph
  cases hl : pm.threads.getLast? with
  | none => rw [hl] at e; exact h1.newThread hm e
  | some s =>
    rw [hl] at e
    simp only [Option.bind_eq_some_iff, Option.pure_def, Option.some.injEq, Prod.mk.injEq] at e
    obtain ⟨⟨r', s'⟩, hrun, -, rfl⟩ := e
    have g := hm.gr _ _ _ hrun
    have hpm := h1.pm ph pm hp
    have hts : pm.threads = pm.threads.dropLast ++ [s] := (List.dropLast_append_getLast? s hl).symm
    have hs : IsCtx (b.touch ph).wgo ph (pm.threads.dropLast.length) s := hpm.2.2 _ s (by
      conv_lhs => rw [hts]
      simp)
    have := h1.update hp (ts := pm.threads.dropLast ++ [s']) (e := s'.eqs.drop s.eqs.length) (c := s'.consts.drop s.consts.length)
      (q := (s'.lookups.drop s.lookups.length).map fun a => (Ctx.tag s, [a])) ?_ ?_ ?_ ?_
    · unfold Builder.absorb
      rw [hs.phase]
      exact this
    · intro j t' hj
      rcases getElem?_snoc hj with hj | ⟨rfl, rfl⟩
      · refine hpm.2.2 j t' ?_
        rw [hts, List.getElem?_append_left (List.getElem?_eq_some_iff.1 hj).1]; exact hj
      · exact g.isCtx hs
    · conv_rhs => rw [hts]
      simp only [List.flatMap_append, List.flatMap_singleton, List.append_assoc]
      rw [← prefix_drop g.eqs]
    · conv_rhs => rw [hts]
      simp only [List.flatMap_append, List.flatMap_singleton, List.append_assoc]
      rw [← prefix_drop g.consts]
    · rw [addLookups_append]
      congr 1
      conv_lhs => rw [hts]
      simp only [List.flatMap_append, List.flatMap_singleton, List.append_assoc]
      rw [lookupLog_grows g]

theorem tags_nodup_of {w : Bool} {i : ℕ} {ts : List (Ctx p)} {n : ℕ} (h : ∀ (j : ℕ) t, ts[j]? = some t → IsCtx w i (n + j) t) :
    (ts.map Ctx.tag).Nodup := by
  rw [List.nodup_iff_getElem?_ne_getElem?]
  intro a c hac hc he
  rw [List.length_map] at hc
  rw [List.getElem?_map, List.getElem?_map, List.getElem?_eq_getElem (show a < ts.length by omega),
    List.getElem?_eq_getElem hc, Option.map_some, Option.map_some, Option.some.injEq] at he
  have h1 := (h a _ (List.getElem?_eq_getElem (show a < ts.length by omega))).id
  have h2 := (h c _ (List.getElem?_eq_getElem hc)).id
  have : (ofLex (Ctx.tag ts[a])).2 = (ofLex (Ctx.tag ts[c])).2 := by rw [he]
  simp only [Ctx.tag, ofLex_toLex] at this
  omega

theorem addLookups_nil_wf (q : List (Tag × List (AV p))) : (addLookups ([] : Buckets p) q).WF := addLookups_wf Buckets.WF.nil q

theorem BInv.parallel {T R : Type} {b b' : Builder p} (h : BInv b) {ph : ℕ} {input : List T} {f : T → M p R}
    (hf : ∀ x ∈ input, CtxProg (f x)) {rs : List R} (e : b.Parallel ph input f rs b') : BInv b' := by
  obtain ⟨pm, t, ss, eqs, consts, queued, hp, ht, hrun, he, hc, hq, rfl⟩ := e
  have hpm := h.pm ph pm hp
  obtain ⟨-, hlen, hrun⟩ := parLoop_spec input hrun
  have hss : ∀ (j : ℕ) s, ss[j]? = some s → IsCtx b.wgo ph (pm.threads.length + j) s := by
    intro j s hj
    have hjl := (List.getElem?_eq_some_iff.1 hj).1
    have hx := List.getElem?_eq_getElem (show j < input.length by omega)
    obtain ⟨r, s1, -, h2, h3⟩ := hrun j _ hx
    rw [hj] at h2; cases h2
    have g := (hf _ (List.getElem_mem _)).gr _ _ _ h3
    refine g.isCtx ⟨?_, rfl, hpm.1, hpm.2.1⟩
    rcases ht with h0 | ht
    · subst h0; simp at hlen; subst hlen; simp at hjl
    · rw [← hpm.1]; exact ht
  refine h.update hp ?_ ?_ ?_ ?_
  · intro j s hj
    rw [List.getElem?_append] at hj
    split at hj
    · exact hpm.2.2 j s hj
    · have := hss _ s hj
      rwa [show pm.threads.length + (j - pm.threads.length) = j by omega] at this
  · rw [List.flatMap_append]
    refine List.Perm.append_left _ ?_
    rw [List.flatMap_def]; exact he.perm.symm
  · rw [List.flatMap_append]
    refine List.Perm.append_left _ ?_
    rw [List.flatMap_def]; exact hc.perm.symm
  · rw [List.flatMap_append, ← addLookups_append]
    refine merge_addLookups_from (addLookups_nil_wf _) hq ?_ (tags_nodup_of hss)
    rw [List.flatMap_def]
    exact merge_flatten _

theorem BInv.new (wgo : Bool) : BInv (Builder.new wgo : Builder p) where
  ne := by simp [Builder.new]
  lk3 := by simp [Builder.new]
  pm := by
    intro i pm h
    simp only [Builder.new] at h
    cases i with
    | zero => simp at h; subst h; simp [PhaseMgr.new, Builder.new]
    | succ i => simp at h
  eqs := by simp [Builder.new, PhaseMgr.new]
  consts := by simp [Builder.new, PhaseMgr.new]
  lookups := by
    intro i m h
    have h1 : m = [] := by
      simp only [Builder.new] at h
      rw [List.getElem?_replicate] at h
      split at h <;> simp_all
    have h2 : (Builder.new wgo : Builder p).threadsOf i = [] := by
      cases i <;> simp [Builder.threadsOf, Builder.new, PhaseMgr.new]
    rw [h1, h2]; rfl
  inst := rfl

theorem same_flatMap {β : Type} (g : Ctx p → List β) {l l' : List (PhaseMgr p)}
    (hp : List.Forall₂ (fun x y : PhaseMgr p => y.threads = x.threads ∧ y.phase = x.phase ∧ y.wgo = x.wgo) l l') :
    (l'.flatMap fun pm => pm.threads.flatMap g) = l.flatMap fun pm => pm.threads.flatMap g := by
  induction hp with
  | nil => rfl
  | cons h _ ih => simp only [List.flatMap_cons, ih, h.1]

/-- Changes that touch neither the contexts nor the managers. -/
theorem BInv.of_same {b b' : Builder p} (h : BInv b) (hw : b'.wgo = b.wgo)
    (hp : List.Forall₂ (fun x y : PhaseMgr p => y.threads = x.threads ∧ y.phase = x.phase ∧ y.wgo = x.wgo) b.phases b'.phases)
    (he : b'.cm.eqs.Perm b.cm.eqs) (hc : b'.cm.consts.Perm b.cm.consts) (hl : b'.lookups = b.lookups)
    (hi : b'.instances.length = b'.params.numInst) : BInv b' := by
  have hlen := hp.length_eq
  have hget : ∀ (i : ℕ) pm', b'.phases[i]? = some pm' → ∃ pm, b.phases[i]? = some pm ∧ pm'.threads = pm.threads ∧ pm'.phase = pm.phase ∧
      pm'.wgo = pm.wgo := by
    intro i pm' h'
    have hi := (List.getElem?_eq_some_iff.1 h').1
    have h0 := List.getElem?_eq_getElem (show i < b.phases.length by omega)
    refine ⟨_, h0, ?_⟩
    have h1 := List.forall₂_iff_get.1 hp
    have h2 := h1.2 i (by omega) hi
    simp only [List.get_eq_getElem] at h2
    rw [List.getElem?_eq_getElem hi] at h'
    cases h'
    exact h2
  have hflat : ∀ {β : Type} (g : Ctx p → List β),
      (b'.phases.flatMap fun pm => pm.threads.flatMap g) = b.phases.flatMap fun pm => pm.threads.flatMap g := by
    intro β g
    exact same_flatMap g hp
  have hth : ∀ i, b'.threadsOf i = b.threadsOf i := by
    intro i
    unfold Builder.threadsOf
    cases h' : b'.phases[i]? with
    | none =>
      rw [List.getElem?_eq_none_iff] at h'
      rw [List.getElem?_eq_none (by omega)]
    | some pm' =>
      obtain ⟨pm, h1, h2, -⟩ := hget i pm' h'
      rw [h1]; simp [h2]
  refine ⟨by rw [← hlen]; exact h.ne, by rw [hl]; exact h.lk3, ?_, ?_, ?_, ?_, hi⟩
  · intro i pm' h'
    obtain ⟨pm, h1, h2, h3, h4⟩ := hget i pm' h'
    have := h.pm i pm h1
    rw [h2, h3, h4, hw]; exact this
  · rw [hflat]; exact he.trans h.eqs
  · rw [hflat]; exact hc.trans h.consts
  · intro i m hm
    rw [hl] at hm
    rw [hth]; exact h.lookups i m hm

theorem same_refl (l : List (PhaseMgr p)) : List.Forall₂ (fun x y : PhaseMgr p => y.threads = x.threads ∧ y.phase = x.phase ∧ y.wgo = x.wgo) l l := by
  induction l with
  | nil => exact .nil
  | cons a l ih => exact .cons ⟨rfl, rfl, rfl⟩ ih

theorem same_map (f : PhaseMgr p → PhaseMgr p) (hf : ∀ x, (f x).threads = x.threads ∧ (f x).phase = x.phase ∧ (f x).wgo = x.wgo)
    (l : List (PhaseMgr p)) : List.Forall₂ (fun x y : PhaseMgr p => y.threads = x.threads ∧ y.phase = x.phase ∧ y.wgo = x.wgo) l (l.map f) := by
  induction l with
  | nil => exact .nil
  | cons a l ih => exact .cons (hf a) ih

theorem same_modify (f : PhaseMgr p → PhaseMgr p) (hf : ∀ x, (f x).threads = x.threads ∧ (f x).phase = x.phase ∧ (f x).wgo = x.wgo) :
    ∀ (l : List (PhaseMgr p)) (i : ℕ),
    List.Forall₂ (fun x y : PhaseMgr p => y.threads = x.threads ∧ y.phase = x.phase ∧ y.wgo = x.wgo) l (l.modify i f)
  | [], i => by simp
  | a :: l, 0 => by rw [List.modify_zero_cons]; exact .cons (hf a) (same_refl l)
  | a :: l, i + 1 => by rw [List.modify_succ_cons]; exact .cons ⟨rfl, rfl, rfl⟩ (same_modify f hf l i)

theorem same_zip : ∀ (l : List (PhaseMgr p)) (bps : List (List ℕ)), l.length = bps.length →
    List.Forall₂ (fun x y : PhaseMgr p => y.threads = x.threads ∧ y.phase = x.phase ∧ y.wgo = x.wgo) l
      (l.zipWith (fun pm bp => { pm with bps := some bp }) bps)
  | [], _, _ => by simp
  | a :: l, [], h => by simp at h
  | a :: l, c :: bps, h => by
    simp only [List.zipWith_cons_cons]
    exact .cons ⟨rfl, rfl, rfl⟩ (same_zip l bps (by simpa using h))

theorem BInv.clear {b : Builder p} (h : BInv b) : BInv b.clear where
  ne := by simpa [Builder.clear] using h.ne
  lk3 := by simpa [Builder.clear] using h.lk3
  pm := by
    intro i pm hk
    simp only [Builder.clear, List.getElem?_map] at hk
    obtain ⟨pm0, h0, rfl⟩ := Option.map_eq_some_iff.1 hk
    have := h.pm i pm0 h0
    exact ⟨this.1, this.2.1, fun j t ht => by simp at ht⟩
  eqs := by simp [Builder.clear, List.flatMap_map]
  consts := by simp [Builder.clear, List.flatMap_map]
  lookups := by
    intro i m hm
    have h1 : m = [] := by
      simp only [Builder.clear, List.getElem?_map] at hm
      obtain ⟨_, _, rfl⟩ := Option.map_eq_some_iff.1 hm; rfl
    have h2 : b.clear.threadsOf i = [] := by
      simp only [Builder.threadsOf, Builder.clear, List.getElem?_map]
      cases b.phases[i]? <;> rfl
    rw [h1, h2]; rfl
  inst := by simpa [Builder.clear] using h.inst

theorem sortEqs_self_perm (l : List (Cell × Cell)) : (sortEqs l).Perm l := List.perm_insertionSort _ l
theorem sortConsts_self_perm (l : List (ZMod p × Cell)) : (sortConsts l).Perm l := List.perm_insertionSort _ l

theorem BInv.setInstanceColumns {b b' : Builder p} (h : BInv b) {n : ℕ} (e : b.setInstanceColumns n = some b') :
    BInv b' ∧ b'.params.numInst = n := by
  simp only [Builder.setInstanceColumns] at e
  split at e
  · rename_i hn
    simp only [Option.some.injEq] at e; subst e
    exact ⟨h.of_same rfl (same_refl _) (List.Perm.refl _) (List.Perm.refl _) rfl hn, rfl⟩
  · cases e

theorem BInv.step {op : Op p} {b b' : Builder p} (h : BInv b) (ok : op.Ok) (st : op.Step b b') : BInv b' := by
  cases op with
  | main ph m => obtain ⟨r, e⟩ := st; exact h.main ok e
  | newThread ph m => obtain ⟨r, e⟩ := st; exact h.newThread ok e
  | parallelize ph input f => obtain ⟨rs, e⟩ := st; exact h.parallel ok e
  | expose c a =>
    simp only [Op.Step, Builder.expose] at st
    split at st
    · simp only [Option.some.injEq] at st; subst st
      exact h.of_same rfl (same_refl _) (List.Perm.refl _) (List.Perm.refl _) rfl (by simpa using h.inst)
    · cases st
  | setInstanceColumns n => exact (h.setInstanceColumns st).1
  | setParams ps =>
    simp only [Op.Step, Builder.setParams] at st
    obtain ⟨b1, e, rfl⟩ := Option.map_eq_some_iff.1 st
    obtain ⟨h1, h2⟩ := h.setInstanceColumns e
    exact h1.of_same rfl (same_refl _) (List.Perm.refl _) (List.Perm.refl _) rfl (by rw [← h2]; exact h1.inst)
  | setK k => rw [show b' = b.setK k from st]; exact h.of_same rfl (same_refl _) (List.Perm.refl _) (List.Perm.refl _) rfl h.inst
  | setLookupBits n =>
    rw [show b' = b.setLookupBits n from st]; exact h.of_same rfl (same_refl _) (List.Perm.refl _) (List.Perm.refl _) rfl h.inst
  | calculateParams m =>
    simp only [Op.Step, Builder.calculateParams] at st
    split at st
    · cases st
    · simp only [Option.some.injEq] at st; subst st
      exact h.of_same rfl (same_refl _) (List.Perm.refl _) (List.Perm.refl _) rfl h.inst
  | setBreakPoints bps =>
    simp only [Op.Step, Builder.setBreakPoints] at st
    split at st
    · simp only [Option.some.injEq] at st; subst st; exact h
    · split at st
      · rename_i hl
        simp only [Option.some.injEq] at st; subst st
        have h1 := h.touch (bps.length - 1)
        exact h1.of_same rfl (same_zip _ _ hl) (List.Perm.refl _) (List.Perm.refl _) rfl h1.inst
      · cases st
  | unknown u =>
    rw [show b' = b.unknown u from st]
    exact h.of_same rfl (same_map (fun pm => { pm with useUnknown := u }) (fun _ => ⟨rfl, rfl, rfl⟩) b.phases) (List.Perm.refl _) (List.Perm.refl _) rfl h.inst
  | clear => rw [show b' = b.clear from st]; exact h.clear
  | synthesize mr us =>
    rcases st with ⟨-, reg, e⟩ | ⟨-, -, rfl⟩
    · simp only [Builder.synthesize, Option.bind_eq_bind, Option.bind_eq_some_iff] at e
      obtain ⟨pm, hp, e⟩ := e
      split at e
      · cases e
      · simp only [Option.bind_eq_some_iff] at e
        obtain ⟨⟨reg', map, bps⟩, -, e⟩ := e
        dsimp only at e
        split at e
        · simp only [Option.some.injEq, Prod.mk.injEq] at e
          obtain ⟨-, rfl⟩ := e
          exact h.of_same rfl (same_modify (fun pm => { pm with bps := some bps }) (fun _ => ⟨rfl, rfl, rfl⟩) b.phases 0) (sortEqs_self_perm _) (sortConsts_self_perm _) rfl h.inst
        · cases e
    · exact h

theorem BInv.hist {ops : List (Op p)} {b b' : Builder p} (h : BInv b) (k : Hist ops b b') : BInv b' := by
  induction k with
  | nil b => exact h
  | cons ok st _ ih => exact ih (h.step ok st)

theorem Reachable.inv {b : Builder p} (h : Reachable b) : BInv b := by
  obtain ⟨wgo, ops, k⟩ := h
  exact (BInv.new wgo).hist k

end H2.Bld
