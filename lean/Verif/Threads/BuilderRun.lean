import Verif.Threads.Replay
import Verif.Props.EndToEnd

/-!
# Circuits run on a `BaseCircuitBuilder`

A program over the contexts of phase 0 (`PM`, Threads/Pool.lean: what the library's multi-threaded routines are) run on the builder:
`builder.main(0)` for the work on the main context and `parallelize_core(builder.pool(0), ..)` for the parallel tasks, whose pushes
reach the shared managers in an arbitrary order.
-/

set_option autoImplicit false
set_option linter.unusedSectionVars false
namespace H2.Bld
open H2 Phys
variable {p : ℕ} [Fact p.Prime]

/-! ## Specification -/

/-- `m` run on phase 0 of the builder, for some schedule of its parallel parts. -/
inductive BRun : {α : Type} → PM p α → Builder p → α → Builder p → Prop
  | pure {α : Type} (a : α) (b : Builder p) : BRun (pure a) b a b
  | bind {α β : Type} {m : PM p α} {f : α → PM p β} {b b1 b2 : Builder p} {a : α} {r : β} :
      BRun m b a b1 → BRun (f a) b1 r b2 → BRun (m >>= f) b r b2
  | main {α : Type} {m : M p α} {b b' : Builder p} {r : α} : CtxProg m → b.main 0 m = some (r, b') → BRun (onMain m) b r b'
  | parallelize {T R : Type} {input : List T} {f : T → M p R} {b b' : Builder p} {rs : List R} : (∀ x ∈ input, CtxProg (f x)) →
      b.Parallel 0 input f rs b' → BRun (H2.parallelize input f) b rs b'
  | assert (b : Builder p) : BRun (assertP true) b () b
  | unwrap {α : Type} (a : α) (b : Builder p) : BRun (unwrapP (some a)) b a b

/-- Programs made of work on the main context and of parallel tasks, which use the contexts only through their methods. -/
inductive Circuit : {α : Type} → PM p α → Prop
  | pure {α : Type} (a : α) : Circuit (pure a)
  | bind {α β : Type} {m : PM p α} {f : α → PM p β} : Circuit m → (∀ a, Circuit (f a)) → Circuit (m >>= f)
  | main {α : Type} {m : M p α} : CtxProg m → Circuit (onMain m)
  | parallelize {T R : Type} {input : List T} {f : T → M p R} : (∀ x ∈ input, CtxProg (f x)) → Circuit (H2.parallelize input f)
  | assert (b : Bool) : Circuit (assertP b)
  | unwrap {α : Type} (o : Option α) : Circuit (unwrapP o)

/-- `builder.assigned_instances[col].push(a)` for all outputs: column `k` gets the `k`-th list. -/
def Builder.exposeCol (b : Builder p) (col : ℕ) : List (AV p) → Option (Builder p)
  | [] => some b
  | a :: as => (b.expose col a).bind fun b => b.exposeCol col as

/-- The same for all columns from `col` on. -/
def Builder.exposeAll (b : Builder p) (col : ℕ) : List (List (AV p)) → Option (Builder p)
  | [] => some b
  | l :: ls => (b.exposeCol col l).bind fun b => b.exposeAll (col + 1) ls

/-! ## Runs on the builder are runs on its pool of threads -/

/-- The type of the contexts of phase 0. -/
abbrev type0 : String := "halo2-base:SinglePhaseCoreManager:FirstPhase"

/-- The pool of phase 0. -/
def Builder.pool0 (b : Builder p) : Pool p := ⟨b.wgo, 0, type0, b.threadsOf 0⟩

/-- Everything but the threads and the constraints they pushed is unchanged. -/
structure Kept (b b' : Builder p) : Prop where
  wgo : b'.wgo = b.wgo
  useUnknown : b'.useUnknown = b.useUnknown
  len : b'.phases.length = b.phases.length
  bps : b'.phases.map (·.bps) = b.phases.map (·.bps)
  later : ∀ i, i ≠ 0 → b'.threadsOf i = b.threadsOf i
  assigned : b'.cm.assigned = b.cm.assigned
  params : b'.params = b.params
  instances : b'.instances = b.instances

theorem Kept.refl (b : Builder p) : Kept b b := ⟨rfl, rfl, rfl, rfl, fun _ _ => rfl, rfl, rfl, rfl⟩

theorem Kept.trans {a b c : Builder p} (h : Kept a b) (k : Kept b c) : Kept a c :=
  ⟨k.wgo.trans h.wgo, k.useUnknown.trans h.useUnknown, k.len.trans h.len, k.bps.trans h.bps, fun i hi => (k.later i hi).trans (h.later i hi),
    k.assigned.trans h.assigned, k.params.trans h.params, k.instances.trans h.instances⟩

theorem map_modify_same {α β : Type} (g : α → β) (f : α → α) (h : ∀ a, g (f a) = g a) (l : List α) (i : ℕ) : (l.modify i f).map g = l.map g := by
  apply List.ext_getElem?
  intro k
  rw [List.getElem?_map, List.getElem?_map, List.getElem?_modify]
  split
  · cases l[k]? with
    | none => rfl
    | some a => simp [h]
  · cases l[k]? <;> rfl

theorem kept_set (b : Builder p) (hb : 0 < b.phases.length) (ts : List (Ctx p)) (cm : CopyMgr p) (hc : cm.assigned = b.cm.assigned)
    (lk : List (Buckets p)) : Kept b { b.setThreads 0 ts with cm := cm, lookups := lk } := by
  refine ⟨rfl, rfl, by simp [Builder.setThreads], map_modify_same (·.bps) (fun pm : PhaseMgr p => { pm with threads := ts }) (fun _ => rfl) b.phases 0, fun i hi => ?_, hc, rfl, rfl⟩
  have := setThreads_threadsOf b 0 ts hb i
  rw [if_neg (Ne.symm hi)] at this
  exact this

theorem phase0 {b : Builder p} (h : BInv b) : ∃ pm, b.phases[0]? = some pm ∧ pm.phase = 0 ∧ pm.wgo = b.wgo ∧ pm.threads = b.threadsOf 0 := by
  have e := List.getElem?_eq_getElem h.ne
  exact ⟨_, e, (h.pm 0 _ e).1, (h.pm 0 _ e).2.1, by simp [Builder.threadsOf, e]⟩

theorem main0 {α : Type} {b : Builder p} (h : BInv b) (m : M p α) (r : α) (b' : Builder p) : b.main 0 m = some (r, b') ↔
    ∃ s s' ts, (b.threadsOf 0 = [] ∧ s = Ctx.new b.wgo 0 type0 0 [] [] ∧ ts = [] ∨ b.threadsOf 0 = ts ++ [s]) ∧ m s = some (r, s') ∧
      b' = (b.setThreads 0 (ts ++ [s'])).absorb s s' := by
  obtain ⟨pm, hp, e1, e2, e3⟩ := phase0 h
  unfold Builder.main Builder.newThread
  rw [touch_of_lt b 0 h.ne]
  simp only [hp, Option.bind_eq_bind, Option.bind_some, touch_of_lt b 0 h.ne]
  cases hl : pm.threads.getLast? with
  | none =>
    have hn : pm.threads = [] := List.getLast?_eq_none_iff.1 hl
    simp only [PhaseMgr.newContext, e1, e2, typeOf, Option.map_some, Option.bind_some, Option.bind_eq_some_iff, Option.pure_def, Option.some.injEq,
      Prod.mk.injEq, hn, List.length_nil, ← e3]
    constructor
    · rintro ⟨⟨r', s'⟩, h1, rfl, rfl⟩
      exact ⟨_, s', [], .inl ⟨by trivial, rfl, rfl⟩, h1, rfl⟩
    · rintro ⟨s, s', ts, h1, h2, rfl⟩
      rcases h1 with ⟨-, rfl, rfl⟩ | h1
      · exact ⟨_, h2, rfl, rfl⟩
      · simp at h1
  | some s =>
    simp only [Option.bind_eq_some_iff, Option.pure_def, Option.some.injEq, Prod.mk.injEq]
    have hs : pm.threads = pm.threads.dropLast ++ [s] := (List.dropLast_append_getLast? s hl).symm
    constructor
    · rintro ⟨⟨r', s'⟩, h1, rfl, rfl⟩
      exact ⟨s, s', _, .inr (by rw [← e3]; exact hs), h1, rfl⟩
    · rintro ⟨t, s', ts, h1, h2, rfl⟩
      rcases h1 with ⟨h0, -, -⟩ | h1
      · rw [← e3] at h0; rw [h0] at hl; cases hl
      · rw [← e3, hs] at h1
        obtain ⟨h3, h4⟩ := List.append_inj' h1 rfl
        obtain rfl : s = t := by simpa using h4
        exact ⟨_, h2, rfl, by rw [h3]⟩

theorem onMain0 {α : Type} (b : Builder p) (m : M p α) (r : α) (S : Pool p) : onMain m b.pool0 = some (r, S) ↔
    ∃ s s' ts, (b.threadsOf 0 = [] ∧ s = Ctx.new b.wgo 0 type0 0 [] [] ∧ ts = [] ∨ b.threadsOf 0 = ts ++ [s]) ∧ m s = some (r, s') ∧
      S = { b.pool0 with threads := ts ++ [s'] } := by
  unfold onMain Builder.pool0
  dsimp only
  cases hl : (b.threadsOf 0).getLast? with
  | none =>
    have hn : b.threadsOf 0 = [] := List.getLast?_eq_none_iff.1 hl
    simp only [hn, List.length_nil, Option.map_eq_some_iff, Prod.mk.injEq]
    constructor
    · rintro ⟨⟨r', s'⟩, h1, rfl, rfl⟩
      exact ⟨_, s', [], .inl ⟨by trivial, rfl, rfl⟩, h1, rfl⟩
    · rintro ⟨s, s', ts, h1, h2, rfl⟩
      rcases h1 with ⟨-, rfl, rfl⟩ | h1
      · exact ⟨_, h2, rfl, rfl⟩
      · simp at h1
  | some s =>
    simp only [Option.map_eq_some_iff, Prod.mk.injEq]
    have hs : b.threadsOf 0 = (b.threadsOf 0).dropLast ++ [s] := (List.dropLast_append_getLast? s hl).symm
    constructor
    · rintro ⟨⟨r', s'⟩, h1, rfl, rfl⟩
      exact ⟨s, s', _, .inr hs, h1, rfl⟩
    · rintro ⟨t, s', ts, h1, h2, rfl⟩
      rcases h1 with ⟨h0, -, -⟩ | h1
      · rw [h0] at hl; cases hl
      · rw [hs] at h1
        obtain ⟨h3, h4⟩ := List.append_inj' h1 rfl
        obtain rfl : s = t := by simpa using h4
        exact ⟨_, h2, rfl, by rw [h3]⟩

theorem threadsOf0_set {b : Builder p} (h : BInv b) (ts : List (Ctx p)) (cm : CopyMgr p) (lk : List (Buckets p)) :
    Builder.threadsOf { b.setThreads 0 ts with cm := cm, lookups := lk } 0 = ts := by
  have := setThreads_threadsOf b 0 ts h.ne 0
  rw [if_pos rfl] at this
  exact this

/-- What a run on the builder does: the program runs on the pool of phase 0, nothing else changes. -/
theorem BRun.sim {α : Type} {m : PM p α} {b b' : Builder p} {r : α} (h : BRun m b r b') (hb : BInv b) :
    m b.pool0 = some (r, b'.pool0) ∧ Kept b b' ∧ BInv b' := by
  induction h with
  | pure a b => exact ⟨rfl, .refl b, hb⟩
  | bind _ _ ih1 ih2 =>
    obtain ⟨e1, k1, i1⟩ := ih1 hb
    obtain ⟨e2, k2, i2⟩ := ih2 i1
    exact ⟨pbind_some.2 ⟨_, _, e1, e2⟩, k1.trans k2, i2⟩
  | @main α m b b' r hm e =>
    refine ⟨?_, ?_, hb.main hm e⟩
    · obtain ⟨s, s', ts, h1, h2, rfl⟩ := (main0 hb m r b').1 e
      refine (onMain0 b m r _).2 ⟨s, s', ts, h1, h2, ?_⟩
      have := threadsOf0_set hb (ts ++ [s']) ((b.setThreads 0 (ts ++ [s'])).absorb s s').cm ((b.setThreads 0 (ts ++ [s'])).absorb s s').lookups
      simp only [Builder.pool0, Builder.absorb] at this ⊢
      rw [this]
      rfl
    · obtain ⟨s, s', ts, h1, h2, rfl⟩ := (main0 hb m r b').1 e
      exact kept_set b hb.ne _ ((b.setThreads 0 (ts ++ [s'])).absorb s s').cm rfl _
  | @parallelize T R input f b b' rs hf e =>
    refine ⟨?_, ?_, hb.parallel hf e⟩
    · obtain ⟨pm, t, ss, eqs, consts, queued, hp, ht, hrun, -, -, -, rfl⟩ := e
      obtain ⟨pm', hp', e1, e2, e3⟩ := phase0 hb
      obtain rfl : pm' = pm := by rw [hp] at hp'; exact (Option.some.inj hp').symm
      rw [e1, e2, e3] at hrun
      have hrun' : parLoop b.wgo 0 type0 f (b.threadsOf 0).length input = some (rs, ss) := by
        rcases ht with rfl | ht
        · exact hrun
        · rw [e1] at ht
          obtain rfl : type0 = t := Option.some.inj ht
          exact hrun
      simp only [H2.parallelize, parallelizeCore, Builder.pool0, hrun', Option.bind_eq_bind, Option.bind_some, Option.pure_def, Option.map_some,
        Option.some.injEq, Prod.mk.injEq, true_and]
      have := threadsOf0_set hb (pm'.threads ++ ss) { b.cm with eqs := b.cm.eqs ++ eqs, consts := b.cm.consts ++ consts }
        (b.lookups.modify 0 fun m => addLookups m queued)
      rw [this, e3]
      rfl
    · obtain ⟨pm, t, ss, eqs, consts, queued, hp, ht, hrun, -, -, -, rfl⟩ := e
      exact kept_set b hb.ne _ { b.cm with eqs := b.cm.eqs ++ eqs, consts := b.cm.consts ++ consts } rfl _
  | assert b => exact ⟨rfl, .refl b, hb⟩
  | unwrap a b => exact ⟨rfl, .refl b, hb⟩

/-- A program that succeeds on the pool of the builder can be run on the builder. -/
theorem Circuit.run {α : Type} {m : PM p α} (h : Circuit m) : ∀ {b : Builder p} {r : α} {S : Pool p}, BInv b → m b.pool0 = some (r, S) →
    ∃ b', BRun m b r b' := by
  induction h with
  | pure a =>
    intro b r S hb e
    obtain ⟨rfl, rfl⟩ : a = r ∧ b.pool0 = S := by simpa [Pure.pure, StateT.pure] using e
    exact ⟨b, .pure a b⟩
  | bind _ _ ih1 ih2 =>
    intro b r S hb e
    obtain ⟨a, S1, e1, e2⟩ := pbind_some.1 e
    obtain ⟨b1, r1⟩ := ih1 hb e1
    obtain ⟨e3, -, hb1⟩ := r1.sim hb
    rw [e3] at e1
    obtain ⟨-, rfl⟩ : a = a ∧ b1.pool0 = S1 := by simpa using e1
    obtain ⟨b2, r2⟩ := ih2 a hb1 e2
    exact ⟨b2, .bind r1 r2⟩
  | main hm =>
    intro b r S hb e
    obtain ⟨s, s', ts, h1, h2, -⟩ := (onMain0 b _ r S).1 e
    exact ⟨_, .main hm ((main0 hb _ r _).2 ⟨s, s', ts, h1, h2, rfl⟩)⟩
  | @parallelize T R input f hf =>
    intro b rs S hb e
    simp only [H2.parallelize, parallelizeCore, Builder.pool0, Option.bind_eq_bind, Option.pure_def, Option.map_eq_some_iff,
      Option.bind_eq_some_iff, Prod.mk.injEq] at e
    obtain ⟨⟨rs', ss'⟩, ⟨⟨rs2, ss⟩, hrun, e1⟩, rfl, -⟩ := e
    obtain ⟨rfl, -⟩ : rs2 = rs' ∧ _ := by simpa using e1
    obtain ⟨pm, hp, e1, e2, e3⟩ := phase0 hb
    exact ⟨_, .parallelize hf ⟨pm, type0, ss, _, _, _, hp, .inr (by rw [e1]; rfl), by rw [e1, e2, e3]; exact hrun, merge_flatten _,
      merge_flatten _, merge_flatten _, rfl⟩⟩
  | assert c =>
    intro b r S hb e
    cases c with
    | false => simp [assertP] at e
    | true => exact ⟨b, .assert b⟩
  | unwrap o =>
    intro b r S hb e
    cases o with
    | none => simp [unwrapP] at e
    | some a =>
      obtain ⟨rfl, rfl⟩ : a = r ∧ b.pool0 = S := by simpa [unwrapP] using e
      exact ⟨b, .unwrap a b⟩

/-! ## Public outputs -/

theorem exposeCol_eq (col : ℕ) (l : List (AV p)) : ∀ {b : Builder p}, col < b.instances.length →
    b.exposeCol col l = some { b with instances := b.instances.modify col fun x => x ++ l } := by
  induction l with
  | nil =>
    intro b _
    simp only [Builder.exposeCol, List.append_nil]
    rw [show (fun x : List (AV p) => x) = id from rfl, List.modify_id]
  | cons a as ih =>
    intro b hb
    simp only [Builder.exposeCol, Builder.expose, if_pos hb, Option.bind_some]
    rw [ih (by simpa using hb)]
    simp only [List.modify_modify_eq, Function.comp_def, List.append_assoc, List.singleton_append]

theorem exposeAll_eq (ls : List (List (AV p))) : ∀ {b : Builder p} (pre : List (List (AV p))),
    b.instances = pre ++ List.replicate ls.length [] → b.exposeAll pre.length ls = some { b with instances := pre ++ ls } := by
  induction ls with
  | nil =>
    intro b pre hb
    simp only [List.length_nil, List.replicate_zero, List.append_nil] at hb ⊢
    rw [← hb]; rfl
  | cons l ls ih =>
    intro b pre hb
    have e : b.instances.modify pre.length (fun x => x ++ l) = (pre ++ [l]) ++ List.replicate ls.length [] := by
      rw [hb, List.length_cons, List.replicate_succ]
      apply List.ext_getElem?
      intro k
      rw [List.getElem?_modify]
      rcases lt_trichotomy k pre.length with h | rfl | h
      · rw [List.append_assoc, List.getElem?_append_left h, List.getElem?_append_left h]
        simp [h.ne']
      · simp
      · rw [List.append_assoc, List.getElem?_append_right (by omega), List.getElem?_append_right (by omega)]
        obtain ⟨j, hj⟩ : ∃ j, k - pre.length = j + 1 := ⟨k - pre.length - 1, by omega⟩
        rw [hj]
        simp [h.ne]
    simp only [Builder.exposeAll]
    rw [exposeCol_eq _ _ (by rw [hb]; simp), Option.bind_some, e]
    have := ih (b := { b with instances := (pre ++ [l]) ++ List.replicate ls.length [] }) (pre ++ [l]) rfl
    rw [List.length_append, List.length_singleton] at this
    rw [this]
    simp

end H2.Bld
