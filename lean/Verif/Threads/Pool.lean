import Verif.Threads.Sched
import Verif.Core.Run

/-!
# Routines that work on a `SinglePhaseCoreManager` (a pool of contexts), and their soundness

`msm_par` and `multi_exp_par` take the manager instead of a context.
-/

set_option autoImplicit false
set_option linter.unusedSectionVars false
namespace H2
variable {p : ℕ} [Fact p.Prime]

/-- `SinglePhaseCoreManager` (gates/flex_gate/threads/single_phase.rs:21-45): its threads and what `new_context` needs
(`typeId` is `type_of()`, single_phase.rs:113-121). -/
structure Pool (p : ℕ) where
  wgo : Bool
  phase : ℕ
  typeId : String
  threads : List (Ctx p)

/-- State-and-panic monad of a routine taking `builder: &mut SinglePhaseCoreManager<F>`. -/
abbrev PM (p : ℕ) (α : Type) := StateT (Pool p) Option α

/-- Run a routine on `builder.main()` (single_phase.rs:99-106): the last context, or a new one if there is none. -/
def onMain {α : Type} (m : M p α) : PM p α := fun S =>
  match S.threads.getLast? with
  | none => (m (Ctx.new S.wgo S.phase S.typeId S.threads.length [] [])).map fun x => (x.1, { S with threads := [x.2] })
  | some s => (m s).map fun x => (x.1, { S with threads := S.threads.dropLast ++ [x.2] })

/-- `parallelize_core` (parallelize.rs:8-29). -/
def parallelize {T R : Type} (input : List T) (f : T → M p R) : PM p (List R) := fun S =>
  (Phys.parallelizeCore S.wgo S.phase S.typeId S.threads input f).map fun x => (x.1, { S with threads := x.2 })

/-- `assert!`, `unwrap` outside any context. -/
def assertP (b : Bool) : PM p Unit := fun S => if b then some ((), S) else none

/-- `unwrap` / indexing outside any context. -/
def unwrapP {α : Type} (o : Option α) : PM p α := fun S => o.map fun a => (a, S)

/-- The assignment satisfies every constraint recorded by every thread. -/
def PSat (tbl : ZMod p → Prop) (S : Pool p) (w : Cell → ZMod p) : Prop := ∀ s ∈ S.threads, Sat tbl s w

/-- A pool in key generation mode. -/
structure PInv (S : Pool p) : Prop where
  wgo : S.wgo = false
  inv : ∀ s ∈ S.threads, Inv s

/-- Nothing recorded was dropped or changed. -/
structure PExt (S S' : Pool p) : Prop where
  wgo : S'.wgo = S.wgo
  phase : S'.phase = S.phase
  typeId : S'.typeId = S.typeId
  threads : ∀ s ∈ S.threads, ∃ s' ∈ S'.threads, Ext s s'

theorem PExt.refl (S : Pool p) : PExt S S := ⟨rfl, rfl, rfl, fun s hs => ⟨s, hs, .refl s⟩⟩

theorem PExt.trans {S T U : Pool p} (h : PExt S T) (k : PExt T U) : PExt S U :=
  ⟨k.wgo.trans h.wgo, k.phase.trans h.phase, k.typeId.trans h.typeId, fun s hs => by
    obtain ⟨t, ht, e⟩ := h.threads s hs
    obtain ⟨u, hu, e'⟩ := k.threads t ht
    exact ⟨u, hu, e.trans e'⟩⟩

theorem PSat.mono {tbl : ZMod p → Prop} {S S' : Pool p} {w : Cell → ZMod p} (h : PExt S S') (k : PSat tbl S' w) : PSat tbl S w := by
  intro s hs
  obtain ⟨s', hs', e⟩ := h.threads s hs
  exact (k s' hs').mono e

/-- Soundness of a routine on a pool. -/
def PSound {α : Type} (tbl : ZMod p → Prop) (m : PM p α) (Q : (Cell → ZMod p) → α → Prop) : Prop :=
  ∀ S, PInv S → ∀ r S', m S = some (r, S') → PInv S' ∧ PExt S S' ∧ ∀ w, PSat tbl S' w → Q w r

section
variable {α β : Type} {tbl : ZMod p → Prop}

theorem PSound.run {m : PM p α} {Q : (Cell → ZMod p) → α → Prop} (h : PSound tbl m Q) {S S' : Pool p} {r : α}
    (hi : PInv S) (hrun : m S = some (r, S')) {w : Cell → ZMod p} (hw : PSat tbl S' w) : Q w r := (h S hi r S' hrun).2.2 w hw

theorem pbind_some {m : PM p α} {f : α → PM p β} {S : Pool p} {r : β} {S' : Pool p} :
    (m >>= f) S = some (r, S') ↔ ∃ a S1, m S = some (a, S1) ∧ f a S1 = some (r, S') := by
  simp only [bind, StateT.bind]
  cases h : m S with
  | none => simp
  | some x =>
    obtain ⟨a, S1⟩ := x
    simp

theorem PSound.bind {m : PM p α} {f : α → PM p β} {Q : (Cell → ZMod p) → α → Prop} {R : (Cell → ZMod p) → β → Prop}
    (h : PSound tbl m Q) (k : ∀ a, PSound tbl (f a) (fun w r => Q w a → R w r)) : PSound tbl (m >>= f) R := by
  intro S hi r S' hr
  obtain ⟨a, S1, h1, h2⟩ := pbind_some.1 hr
  obtain ⟨i1, e1, q1⟩ := h S hi a S1 h1
  obtain ⟨i2, e2, q2⟩ := k a S1 i1 r S' h2
  exact ⟨i2, e1.trans e2, fun w hw => q2 w hw (q1 w (hw.mono e2))⟩

theorem PSound.weaken {m : PM p α} {Q R : (Cell → ZMod p) → α → Prop} (h : PSound tbl m Q) (k : ∀ w r, Q w r → R w r) :
    PSound tbl m R := by
  intro S hi r S' hr
  obtain ⟨i, e, q⟩ := h S hi r S' hr
  exact ⟨i, e, fun w hw => k w r (q w hw)⟩

theorem PSound.pure {a : α} {Q : (Cell → ZMod p) → α → Prop} (h : ∀ w, Q w a) : PSound tbl (pure a : PM p α) Q := by
  intro S hi r S' hr
  have hr : some (a, S) = some (r, S') := hr
  obtain ⟨rfl, rfl⟩ : a = r ∧ S = S' := by simpa using hr
  exact ⟨hi, .refl _, fun w _ => h w⟩

theorem PSound.assert {b : Bool} {f : Unit → PM p β} {R : (Cell → ZMod p) → β → Prop} (k : b = true → PSound tbl (f ()) R) :
    PSound tbl (assertP b >>= f) R := by
  intro S hi r S' hr
  obtain ⟨a, S1, h1, h2⟩ := pbind_some.1 hr
  unfold assertP at h1
  split at h1
  · rename_i hb
    obtain ⟨-, rfl⟩ : a = () ∧ S = S1 := by simpa using h1
    exact k hb S hi r S' h2
  · cases h1

theorem PSound.unwrap {o : Option α} {f : α → PM p β} {R : (Cell → ZMod p) → β → Prop}
    (k : ∀ a, o = some a → PSound tbl (f a) R) : PSound tbl (unwrapP o >>= f) R := by
  intro S hi r S' hr
  obtain ⟨a, S1, h1, h2⟩ := pbind_some.1 hr
  unfold unwrapP at h1
  obtain ⟨a', h1', e⟩ := Option.map_eq_some_iff.1 h1
  obtain ⟨rfl, rfl⟩ : a' = a ∧ S = S1 := by simpa using e
  exact k a' h1' S hi r S' h2

theorem onMain_sound {m : M p α} {Q : (Cell → ZMod p) → α → Prop} (h : Sound tbl m Q) : PSound tbl (onMain m) Q := by
  intro S hi r S' hr
  unfold onMain at hr
  split at hr
  · rename_i hl
    obtain ⟨⟨r', s'⟩, h1, e⟩ := Option.map_eq_some_iff.1 hr
    obtain ⟨rfl, rfl⟩ := by simpa using e
    rw [hi.wgo] at h1
    obtain ⟨i, _, q⟩ := h _ (inv_new _ _ _ _ _) _ _ h1
    have hnil : S.threads = [] := List.getLast?_eq_none_iff.1 hl
    refine ⟨⟨hi.wgo, by simpa using i⟩, ⟨rfl, rfl, rfl, by rw [hnil]; simp⟩, fun w hw => q w (hw s' (by simp))⟩
  · rename_i s hl
    obtain ⟨⟨r', s'⟩, h1, e⟩ := Option.map_eq_some_iff.1 hr
    obtain ⟨rfl, rfl⟩ := by simpa using e
    have hs : S.threads = S.threads.dropLast ++ [s] := by
      obtain ⟨l, hl⟩ := List.getLast?_eq_some_iff.1 hl
      rw [hl]; simp
    obtain ⟨i, ex, q⟩ := h s (hi.inv s (by rw [hs]; simp)) _ _ h1
    refine ⟨⟨hi.wgo, ?_⟩, ⟨rfl, rfl, rfl, ?_⟩, fun w hw => q w (hw s' (by simp))⟩
    · intro t ht
      rcases List.mem_append.1 ht with ht | ht
      · exact hi.inv t (List.dropLast_subset _ ht)
      · rw [List.mem_singleton.1 ht]; exact i
    · intro t ht
      rw [hs] at ht
      rcases List.mem_append.1 ht with ht | ht
      · exact ⟨t, List.mem_append_left _ ht, .refl t⟩
      · rw [List.mem_singleton.1 ht]
        exact ⟨s', by simp, ex⟩

theorem parLoop_forall₂ {T R : Type} {wgo : Bool} {phase : ℕ} {typeId : String} {f : T → M p R} (xs : List T) :
    ∀ {id : ℕ} {rs : List R} {ss : List (Ctx p)}, Phys.parLoop wgo phase typeId f id xs = some (rs, ss) →
    ss.length = rs.length ∧ List.Forall₂ (fun x (rs : R × Ctx p) => ∃ i, f x (Ctx.new wgo phase typeId i [] []) = some rs) xs (rs.zip ss) := by
  induction xs with
  | nil =>
    intro id rs ss h
    simp only [Phys.parLoop, Option.some.injEq, Prod.mk.injEq] at h
    obtain ⟨rfl, rfl⟩ := h
    exact ⟨rfl, .nil⟩
  | cons x xs ih =>
    intro id rs ss h
    simp only [Phys.parLoop, Option.bind_eq_bind, Option.bind_eq_some_iff, Option.pure_def, Option.some.injEq,
      Prod.mk.injEq] at h
    obtain ⟨⟨r, s⟩, h1, ⟨rs', ss'⟩, h2, rfl, rfl⟩ := h
    obtain ⟨i1, i2⟩ := ih h2
    exact ⟨by simp [i1], .cons ⟨id, h1⟩ i2⟩

/-- Every task of a parallel section obeys its own specification, for the one assignment satisfying all threads. -/
theorem parallelize_sound {T R : Type} {f : T → M p R} {Q : T → (Cell → ZMod p) → R → Prop} (input : List T)
    (h : ∀ x ∈ input, Sound tbl (f x) (Q x)) :
    PSound tbl (parallelize input f) (fun w rs => input.Forall₂ (fun x r => Q x w r) rs) := by
  intro S hi rs S' hr
  obtain ⟨⟨rs', ts⟩, h1, e⟩ := Option.map_eq_some_iff.1 hr
  obtain ⟨rfl, rfl⟩ := by simpa using e
  unfold Phys.parallelizeCore at h1
  simp only [Option.bind_eq_bind, Option.bind_eq_some_iff, Option.pure_def, Option.some.injEq, Prod.mk.injEq] at h1
  obtain ⟨⟨rs1, ss⟩, h2, rfl, rfl⟩ := h1
  rw [hi.wgo] at h2
  obtain ⟨hl, hall⟩ := parLoop_forall₂ input h2
  have key : (∀ s ∈ ss, Inv s) ∧ ∀ w, (∀ s ∈ ss, Sat tbl s w) → input.Forall₂ (fun x r => Q x w r) rs1 := by
    clear h2 hr e
    induction input generalizing rs1 ss with
    | nil =>
      have hz := List.forall₂_nil_left_iff.1 hall
      cases rs1 with
      | nil =>
        have : ss = [] := List.length_eq_zero_iff.1 hl
        subst this
        exact ⟨by simp, fun _ _ => .nil⟩
      | cons r rs1 =>
        cases ss with
        | nil => simp at hl
        | cons s ss => simp at hz
    | cons x input ih =>
      cases rs1 with
      | nil => simp at hall
      | cons r rs1 =>
        cases ss with
        | nil => simp at hl
        | cons s ss =>
          rw [List.zip_cons_cons, List.forall₂_cons] at hall
          obtain ⟨⟨i, hx⟩, hall⟩ := hall
          obtain ⟨a, b⟩ := ih (fun y hy => h y (List.mem_cons_of_mem _ hy)) rs1 ss (by simpa using hl) hall
          obtain ⟨i1, _, q⟩ := h x List.mem_cons_self _ (inv_new _ _ _ _ _) _ _ hx
          refine ⟨List.forall_mem_cons.2 ⟨i1, a⟩, fun w hw => ?_⟩
          obtain ⟨w1, w2⟩ := List.forall_mem_cons.1 hw
          exact .cons (q w w1) (b w w2)
  refine ⟨⟨hi.wgo, ?_⟩, ⟨rfl, rfl, rfl, fun s hs => ⟨s, List.mem_append_left _ hs, .refl s⟩⟩, fun w hw => key.2 w fun s hs => hw s (List.mem_append_right _ hs)⟩
  intro s hs
  rcases List.mem_append.1 hs with hs | hs
  · exact hi.inv s hs
  · exact key.1 s hs

theorem parLoop_map {T U R : Type} {wgo : Bool} {phase : ℕ} {typeId : String} {f : U → M p R} (g : T → U) (xs : List T) :
    ∀ id, Phys.parLoop wgo phase typeId f id (xs.map g) = Phys.parLoop wgo phase typeId (fun x => f (g x)) id xs := by
  induction xs with
  | nil => intro id; rfl
  | cons x xs ih => intro id; simp only [List.map_cons, Phys.parLoop, ih]

theorem parallelize_map {T U R : Type} {f : U → M p R} (g : T → U) (xs : List T) :
    parallelize (xs.map g) f = parallelize xs (fun x => f (g x)) := by
  funext S
  simp only [parallelize, Phys.parallelizeCore, parLoop_map]

end
end H2
