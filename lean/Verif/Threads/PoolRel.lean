import Verif.Threads.Pool
import Verif.Core.Rel

/-!
# Relational logic for routines that run on a pool of contexts
-/

set_option autoImplicit false
set_option linter.unusedSectionVars false
namespace H2
variable {p : ℕ} [Fact p.Prime] {k : Bool}

/-- No constraint recorded. -/
def Clean (t : Ctx p) : Prop := t.selector = [] ∧ t.eqs = [] ∧ t.consts = []

/-- Related pools: as many threads, related one by one; the prover-mode pool records no constraint. -/
structure PRS (k : Bool) (S T : Pool p) : Prop where
  wl : S.wgo = false
  wr : T.wgo = k
  phase : S.phase = T.phase
  typeId : S.typeId = T.typeId
  threads : List.Forall₂ (RS k) S.threads T.threads
  clean : k = true → ∀ t ∈ T.threads, Clean t

/-- Relational triple on pools. -/
def PRel {α β : Type} (k : Bool) (m : PM p α) (m' : PM p β) (Q : α → β → Prop) : Prop :=
  ∀ S T, PRS k S T → ∀ r S', m S = some (r, S') →
    (k = true → ((∀ s ∈ S.threads, Layable s) → ∀ s ∈ S'.threads, Layable s) ∧ ∃ r' T', m' T = some (r', T')) ∧
    ∀ r' T', m' T = some (r', T') → PRS k S' T' ∧ Q r r'

variable {α β γ δ : Type}

theorem PRel.bind {m : PM p α} {m' : PM p β} {f : α → PM p γ} {f' : β → PM p δ} {Q : α → β → Prop} {R : γ → δ → Prop}
    (h : PRel k m m' Q) (hf : ∀ r r', Q r r' → PRel k (f r) (f' r') R) : PRel k (m >>= f) (m' >>= f') R := by
  intro S T hs r S2 hr
  obtain ⟨a, S1, h1, h2⟩ := pbind_some.1 hr
  obtain ⟨e, q⟩ := h S T hs a S1 h1
  refine ⟨fun hk => ?_, fun r' T2 hr' => ?_⟩
  · obtain ⟨y, a', T1, h1'⟩ := e hk
    obtain ⟨c, d⟩ := q a' T1 h1'
    obtain ⟨y', r', T2, h2'⟩ := (hf a a' d S1 T1 c r S2 h2).1 hk
    exact ⟨fun h => y' (y h), r', T2, pbind_some.2 ⟨a', T1, h1', h2'⟩⟩
  · obtain ⟨a', T1, h1', h2'⟩ := pbind_some.1 hr'
    obtain ⟨c, d⟩ := q a' T1 h1'
    exact (hf a a' d S1 T1 c r S2 h2).2 r' T2 h2'

theorem PRel.ite {c : Prop} [Decidable c] {c' : Prop} [Decidable c'] {m1 m2 : PM p α} {n1 n2 : PM p β}
    {Q : α → β → Prop} (hc : c ↔ c') (h1 : c → PRel k m1 n1 Q) (h2 : ¬ c → PRel k m2 n2 Q) :
    PRel k (if c then m1 else m2) (if c' then n1 else n2) Q := by
  by_cases h : c
  · rw [if_pos h, if_pos (hc.1 h)]; exact h1 h
  · rw [if_neg h, if_neg (fun h' => h (hc.2 h'))]; exact h2 h

theorem assertP_rel {b b' : Bool} (h : b = b') : PRel k (assertP b : PM p Unit) (assertP b') (fun _ _ => True) := by
  subst h
  intro S T hs r S' hr
  cases b with
  | false => simp [assertP] at hr
  | true =>
    simp only [assertP, if_true, Option.some.injEq, Prod.mk.injEq] at hr
    obtain ⟨-, rfl⟩ := hr
    refine ⟨fun _ => ⟨fun h => h, (), T, rfl⟩, fun r' T' h => ?_⟩
    simp only [assertP, if_true, Option.some.injEq, Prod.mk.injEq] at h
    obtain ⟨-, rfl⟩ := h
    exact ⟨hs, trivial⟩

/-- `unwrap` of options that are both present or both absent. -/
theorem unwrapP_rel {o : Option α} {o' : Option β} {Q : α → β → Prop}
    (h : ∀ a, o = some a → ∃ b, o' = some b ∧ Q a b) : PRel k (unwrapP o : PM p α) (unwrapP o' : PM p β) Q := by
  intro S T hs r S' hr
  obtain ⟨a, e, h1⟩ := Option.map_eq_some_iff.1 hr
  obtain ⟨rfl, rfl⟩ := by simpa using h1
  obtain ⟨b, hb, hq⟩ := h a e
  refine ⟨fun _ => ⟨fun h => h, b, T, by simp [unwrapP, hb]⟩, fun r' T' h' => ?_⟩
  simp only [unwrapP, hb, Option.map_some, Option.some.injEq, Prod.mk.injEq] at h'
  obtain ⟨rfl, rfl⟩ := h'
  exact ⟨hs, hq⟩

theorem rs_new (k : Bool) (phase phase' : ℕ) (t : String) (i : ℕ) :
    RS k (Ctx.new false phase t i [] [] : Ctx p) (Ctx.new k phase' t i [] []) :=
  ⟨rfl, rfl, rfl, rfl, rfl, fun _ => rfl, .none, fun _ => rfl, fun _ => rfl, fun _ => rfl, .nil⟩

theorem clean_frame {t t' : Ctx p} (h : Frame k t t') (hk : k = true) (hc : Clean t) : Clean t' := by
  obtain ⟨h1, h2, h3⟩ := h hk
  exact ⟨h1.trans hc.1, h2.trans hc.2.1, h3.trans hc.2.2⟩

theorem forall₂_concat {R : α → β → Prop} : ∀ {m : List α} {l : List α} {l' : List β}, List.Forall₂ R l l' → ∀ {a : α},
    l = m ++ [a] → ∃ b m', l' = m' ++ [b] ∧ List.Forall₂ R m m' ∧ R a b
  | [], _, _, h, a, e => by
    subst e
    cases h with
    | cons h1 h2 => cases h2; exact ⟨_, [], rfl, .nil, h1⟩
  | x :: m, _, _, h, a, e => by
    subst e
    cases h with
    | cons h1 h2 =>
      obtain ⟨b, m', rfl, h3, h4⟩ := forall₂_concat (m := m) h2 rfl
      exact ⟨b, _ :: m', rfl, .cons h1 h3, h4⟩

theorem onMain_rel {m : M p α} {m' : M p β} {Q : α → β → Prop} (h : Rel k m m' Q) : PRel k (onMain m) (onMain m') Q := by
  intro S T hs r S' hr
  rcases List.eq_nil_or_concat S.threads with e | ⟨l, s, e⟩
  · have e' : T.threads = [] := by have := hs.threads; rw [e] at this; exact List.forall₂_nil_left_iff.1 this
    simp only [onMain, e, List.getLast?_nil] at hr
    obtain ⟨⟨r1, s1⟩, h1, h2⟩ := Option.map_eq_some_iff.1 hr
    obtain ⟨rfl, rfl⟩ := by simpa using h2
    rw [hs.wl] at h1
    have h0 : RS k (Ctx.new false S.phase S.typeId 0 [] [] : Ctx p) (Ctx.new T.wgo T.phase T.typeId 0 [] []) := by
      rw [hs.wr, ← hs.typeId]; exact rs_new k _ _ _ _
    obtain ⟨a, b⟩ := h _ _ h0 _ _ h1
    refine ⟨fun hk => ?_, fun r' T' h' => ?_⟩
    · obtain ⟨ly, r', t', h3⟩ := a hk
      refine ⟨fun _ s hs => ?_, r', _, by simp only [onMain, e', List.getLast?_nil, List.length_nil, h3]; rfl⟩
      rw [List.mem_singleton.1 hs]
      exact ly trivial (layable_new _ _ _ _ _ _)
    · simp only [onMain, e', List.getLast?_nil] at h'
      obtain ⟨⟨r2, t2⟩, h3, h4⟩ := Option.map_eq_some_iff.1 h'
      obtain ⟨rfl, rfl⟩ := by simpa using h4
      obtain ⟨c, f, q⟩ := b _ _ h3
      refine ⟨⟨hs.wl, hs.wr, hs.phase, hs.typeId, .cons c .nil, fun hk t ht => ?_⟩, q⟩
      rw [List.mem_singleton.1 ht]
      exact clean_frame f hk ⟨rfl, rfl, rfl⟩
  · rw [List.concat_eq_append] at e
    obtain ⟨t, l', e', hl, ht⟩ := forall₂_concat hs.threads e
    simp only [onMain, e, List.getLast?_concat, List.dropLast_concat] at hr
    obtain ⟨⟨r1, s1⟩, h1, h2⟩ := Option.map_eq_some_iff.1 hr
    obtain ⟨rfl, rfl⟩ := by simpa using h2
    obtain ⟨a, b⟩ := h _ _ ht _ _ h1
    refine ⟨fun hk => ?_, fun r' T' h' => ?_⟩
    · obtain ⟨ly, r', t', h3⟩ := a hk
      refine ⟨fun hL u hu => ?_, r', _, by simp only [onMain, e', List.getLast?_concat, List.dropLast_concat, h3]; rfl⟩
      rcases List.mem_append.1 hu with hu | hu
      · exact hL u (by rw [e]; exact List.mem_append_left _ hu)
      · rw [List.mem_singleton.1 hu]
        exact ly trivial (hL s (by rw [e]; simp))
    · simp only [onMain, e', List.getLast?_concat, List.dropLast_concat] at h'
      obtain ⟨⟨r2, t2⟩, h3, h4⟩ := Option.map_eq_some_iff.1 h'
      obtain ⟨rfl, rfl⟩ := by simpa using h4
      obtain ⟨c, f, q⟩ := b _ _ h3
      refine ⟨⟨hs.wl, hs.wr, hs.phase, hs.typeId, List.rel_append hl (.cons c .nil), fun hk u hu => ?_⟩, q⟩
      have hcl := hs.clean hk
      rw [e'] at hcl
      rcases List.mem_append.1 hu with hu | hu
      · exact hcl u (List.mem_append_left _ hu)
      · rw [List.mem_singleton.1 hu]
        exact clean_frame f hk (hcl t (by simp))

theorem parLoop_rel {T U R W : Type} {f : T → M p R} {g : U → M p W} {P : T → U → Prop} {Q : R → W → Prop}
    (h : ∀ x y, P x y → Rel k (f x) (g y) Q) (phase phase' : ℕ) (t : String) {xs : List T} {ys : List U}
    (hx : List.Forall₂ P xs ys) : ∀ id rs ss, Phys.parLoop false phase t f id xs = some (rs, ss) →
    (k = true → (∀ s ∈ ss, Layable s) ∧ ∃ ws ts, Phys.parLoop k phase' t g id ys = some (ws, ts)) ∧
    ∀ ws ts, Phys.parLoop k phase' t g id ys = some (ws, ts) →
      List.Forall₂ (RS k) ss ts ∧ (k = true → ∀ u ∈ ts, Clean u) ∧ List.Forall₂ Q rs ws := by
  induction hx with
  | nil =>
    intro id rs ss hr
    simp only [Phys.parLoop, Option.some.injEq, Prod.mk.injEq] at hr ⊢
    obtain ⟨rfl, rfl⟩ := hr
    refine ⟨fun _ => ⟨by simp, [], [], rfl, rfl⟩, ?_⟩
    rintro _ _ ⟨rfl, rfl⟩
    exact ⟨.nil, by simp, .nil⟩
  | @cons x y xs ys hxy _ ih =>
    intro id rs ss hr
    simp only [Phys.parLoop, Option.bind_eq_bind, Option.bind_eq_some_iff, Option.pure_def, Option.some.injEq,
      Prod.mk.injEq, Prod.exists] at hr ⊢
    obtain ⟨r, s, h1, rs', ss', h2, rfl, rfl⟩ := hr
    obtain ⟨a, b⟩ := h x y hxy _ _ (rs_new k phase phase' t id) _ _ h1
    obtain ⟨c, d⟩ := ih _ _ _ h2
    refine ⟨fun hk => ?_, ?_⟩
    · obtain ⟨ly, r', t', h3⟩ := a hk
      obtain ⟨ly', ws, ts, h4⟩ := c hk
      refine ⟨fun u hu => ?_, _, _, r', t', h3, ws, ts, h4, rfl, rfl⟩
      rcases List.mem_cons.1 hu with rfl | hu
      · exact ly trivial (layable_new _ _ _ _ _ _)
      · exact ly' u hu
    · rintro _ _ ⟨r', t', h3, ws, ts, h4, rfl, rfl⟩
      obtain ⟨e, fr, q⟩ := b _ _ h3
      obtain ⟨g1, g2, g3⟩ := d _ _ h4
      refine ⟨.cons e g1, fun hk u hu => ?_, .cons q g3⟩
      rcases List.mem_cons.1 hu with rfl | hu
      · exact clean_frame fr hk ⟨rfl, rfl, rfl⟩
      · exact g2 hk u hu

theorem parallelize_rel {T U R W : Type} {f : T → M p R} {g : U → M p W} {P : T → U → Prop} {Q : R → W → Prop}
    (h : ∀ x y, P x y → Rel k (f x) (g y) Q) {xs : List T} {ys : List U} (hx : List.Forall₂ P xs ys) :
    PRel k (parallelize xs f) (parallelize ys g) (List.Forall₂ Q) := by
  intro S S' hs r S1 hr
  simp only [parallelize, Phys.parallelizeCore, Option.bind_eq_bind, Option.map_eq_some_iff, Option.bind_eq_some_iff,
    Option.pure_def, Option.some.injEq, Prod.mk.injEq, Prod.exists] at hr ⊢
  obtain ⟨rs, tt, ⟨rs', ss, h1, rfl, rfl⟩, rfl, rfl⟩ := hr
  rw [hs.wl] at h1
  obtain ⟨a, b⟩ := parLoop_rel h S.phase S'.phase S.typeId hx _ _ _ h1
  rw [hs.typeId, hs.threads.length_eq, ← hs.wr] at a b
  refine ⟨fun hk => ?_, ?_⟩
  · obtain ⟨ly, ws, ts, h2⟩ := a (by rw [hs.wr]; exact hk)
    refine ⟨fun hL u hu => ?_, _, _, _, _, ⟨_, _, h2, rfl, rfl⟩, rfl, rfl⟩
    rcases List.mem_append.1 hu with hu | hu
    · exact hL u hu
    · exact ly u hu
  · rintro _ _ ⟨_, _, ⟨ws, ts, h2, rfl, rfl⟩, rfl, rfl⟩
    obtain ⟨g1, g2, g3⟩ := b _ _ h2
    rw [hs.wr] at g1 g2
    refine ⟨⟨hs.wl, hs.wr, hs.phase, hs.typeId, List.rel_append hs.threads g1, fun hk u hu => ?_⟩, g3⟩
    rcases List.mem_append.1 hu with hu | hu
    · exact hs.clean hk u hu
    · exact g2 hk u hu

end H2
