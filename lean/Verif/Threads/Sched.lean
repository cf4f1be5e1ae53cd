import Verif.Threads.Synth

/-! # Scheduling: parallel contexts pushing to the shared managers -/

set_option autoImplicit false
namespace H2.Phys
open H2
variable {p : ℕ}

/-- `Merge logs out`: `out` is the order in which the pushes of the threads `logs` reach the shared (mutex-protected)
list, for some schedule: at every step some thread with work left performs its next push. -/
inductive Merge {α : Type} : List (List α) → List α → Prop
  | done {logs : List (List α)} : (∀ l ∈ logs, l = []) → Merge logs []
  | step {logs : List (List α)} {out : List α} (i : ℕ) (a : α) (l : List α) : logs[i]? = some (a :: l) →
      Merge (logs.set i l) out → Merge logs (a :: out)

theorem Merge.perm {α : Type} {logs : List (List α)} {out : List α} (h : Merge logs out) : out.Perm logs.flatten := by
  induction h with
  | done h0 =>
    rw [List.flatten_eq_nil_iff.2 h0]
  | @step logs out i a l hi _ ih =>
    obtain ⟨hl, e⟩ := List.getElem?_eq_some_iff.1 hi
    have h1 : logs = logs.take i ++ (a :: l) :: logs.drop (i + 1) := by
      rw [← e, List.getElem_cons_drop, List.take_append_drop]
    have h2 : logs.set i l = logs.take i ++ l :: logs.drop (i + 1) := by
      rw [List.set_eq_take_append_cons_drop, if_pos hl]
    rw [h2] at ih
    have : logs.flatten = (logs.take i).flatten ++ (a :: l) ++ (logs.drop (i + 1)).flatten := by
      conv_lhs => rw [h1]
      simp
    rw [this]
    refine (List.Perm.cons a ih).trans ?_
    simp only [List.flatten_append, List.flatten_cons, List.cons_append, List.append_assoc]
    exact List.perm_middle.symm

/-- Any schedule keeps each thread's own order: the pushes selected by a predicate that only thread `j` satisfies are
exactly thread `j`'s. -/
theorem Merge.filter {α : Type} {logs : List (List α)} {out : List α} (h : Merge logs out) (f : α → Bool) :
    ∀ j : ℕ, (∀ (i : ℕ) l, logs[i]? = some l → i ≠ j → ∀ a ∈ l, f a = false) →
      out.filter f = ((logs[j]?).getD []).filter f := by
  induction h with
  | @done logs h0 =>
    intro j _
    cases hj : logs[j]? with
    | none => simp
    | some l => have := h0 l (List.mem_of_getElem? hj); subst this; simp
  | @step logs out i a l hi _ ih =>
    intro j hj
    have hlen : i < logs.length := (List.getElem?_eq_some_iff.1 hi).1
    have hj' : ∀ (i' : ℕ) l', (logs.set i l)[i']? = some l' → i' ≠ j → ∀ b ∈ l', f b = false := by
      intro i' l' h' hne b hb
      by_cases hii : i = i'
      · subst hii
        rw [List.getElem?_set_self hlen] at h'
        simp at h'; subst h'
        exact hj i _ hi hne b (List.mem_cons_of_mem _ hb)
      · rw [List.getElem?_set_ne hii] at h'
        exact hj i' l' h' hne b hb
    have := ih j hj'
    by_cases hij : i = j
    · subst hij
      rw [List.getElem?_set_self hlen] at this
      rw [hi]
      simp only [Option.getD_some] at this ⊢
      rw [List.filter_cons, List.filter_cons, this]
    · have ha : f a = false := hj i _ hi hij a List.mem_cons_self
      rw [List.filter_cons, ha, List.getElem?_set_ne hij] at *
      simpa using this

/-! ## Buckets -/

/-- The bucket of a tag. -/
def Buckets.get : Buckets p → Tag → List (List (AV p))
  | [], _ => []
  | (t', l) :: m, t => if t = t' then l else Buckets.get m t

structure Buckets.WF (m : Buckets p) : Prop where
  sorted : m.Pairwise fun a b => a.1 < b.1
  nonempty : ∀ e ∈ m, e.2 ≠ []

theorem Buckets.get_eq_nil {m : Buckets p} {t : Tag} (h : ∀ e ∈ m, e.1 ≠ t) : Buckets.get m t = [] := by
  induction m with
  | nil => rfl
  | cons a m ih =>
    obtain ⟨t', l⟩ := a
    have h0 : t ≠ t' := fun e => h (t', l) List.mem_cons_self e.symm
    simp only [Buckets.get, h0, if_false]
    exact ih fun e he => h e (List.mem_cons_of_mem _ he)

theorem Buckets.ext' {m : Buckets p} : ∀ {m' : Buckets p}, m.WF → m'.WF → (∀ t, m.get t = m'.get t) → m = m' := by
  induction m with
  | nil =>
    intro m' _ h' h
    cases m' with
    | nil => rfl
    | cons b m' =>
      obtain ⟨t', l'⟩ := b
      have := h t'
      simp only [Buckets.get, if_true] at this
      exact absurd this.symm (h'.nonempty (t', l') List.mem_cons_self)
  | cons a m ih =>
    intro m' hw h' h
    obtain ⟨t, l⟩ := a
    cases m' with
    | nil =>
      have := h t
      simp only [Buckets.get, if_true] at this
      exact absurd this (hw.nonempty (t, l) List.mem_cons_self)
    | cons b m' =>
      obtain ⟨t', l'⟩ := b
      have hs := List.pairwise_cons.1 hw.sorted
      have hs' := List.pairwise_cons.1 h'.sorted
      have htt : t = t' := by
        rcases lt_trichotomy t t' with hlt | heq | hgt
        · have := h t
          rw [Buckets.get, if_pos rfl, Buckets.get_eq_nil (m := (t', l') :: m')] at this
          · exact absurd this (hw.nonempty (t, l) List.mem_cons_self)
          · intro e he
            rcases List.mem_cons.1 he with rfl | he
            · exact ne_of_gt hlt
            · exact ne_of_gt (hlt.trans (hs'.1 e he))
        · exact heq
        · have := h t'
          rw [Buckets.get_eq_nil (m := (t, l) :: m), Buckets.get, if_pos rfl] at this
          · exact absurd this.symm (h'.nonempty (t', l') List.mem_cons_self)
          · intro e he
            rcases List.mem_cons.1 he with rfl | he
            · exact ne_of_gt hgt
            · exact ne_of_gt (hgt.trans (hs.1 e he))
      subst htt
      have hl := h t
      simp only [Buckets.get, if_true] at hl
      subst hl
      congr 1
      refine ih ⟨hs.2, fun e he => hw.nonempty e (List.mem_cons_of_mem _ he)⟩
        ⟨hs'.2, fun e he => h'.nonempty e (List.mem_cons_of_mem _ he)⟩ ?_
      intro u
      by_cases hu : u = t
      · subst hu
        rw [Buckets.get_eq_nil fun e he => ne_of_gt (hs.1 e he), Buckets.get_eq_nil fun e he => ne_of_gt (hs'.1 e he)]
      · have := h u
        simpa [Buckets.get, hu] using this

theorem addLookup_keys {m : Buckets p} {t : Tag} {c : List (AV p)} {e : Tag × List (List (AV p))}
    (h : e ∈ addLookup m t c) : e.1 = t ∨ ∃ e' ∈ m, e'.1 = e.1 := by
  induction m with
  | nil => simp [addLookup] at h; subst h; exact .inl rfl
  | cons a m ih =>
    obtain ⟨t', l⟩ := a
    rw [addLookup] at h
    split at h
    · next e0 => rcases List.mem_cons.1 h with rfl | h
                 · exact .inl e0.symm
                 · exact .inr ⟨e, List.mem_cons_of_mem _ h, rfl⟩
    · split at h
      · rcases List.mem_cons.1 h with rfl | h
        · exact .inl rfl
        · exact .inr ⟨e, h, rfl⟩
      · rcases List.mem_cons.1 h with rfl | h
        · exact .inr ⟨_, List.mem_cons_self, rfl⟩
        · rcases ih h with h1 | ⟨e', h1, h2⟩
          · exact .inl h1
          · exact .inr ⟨e', List.mem_cons_of_mem _ h1, h2⟩

theorem addLookup_wf {m : Buckets p} (h : m.WF) (t : Tag) (c : List (AV p)) : (addLookup m t c).WF := by
  induction m with
  | nil => constructor <;> simp [addLookup]
  | cons a m ih =>
    obtain ⟨t', l⟩ := a
    have hs := List.pairwise_cons.1 h.sorted
    have hm : Buckets.WF m := ⟨hs.2, fun e he => h.nonempty e (List.mem_cons_of_mem _ he)⟩
    rw [addLookup]
    split
    · next e0 =>
      refine ⟨List.pairwise_cons.2 ⟨hs.1, hs.2⟩, ?_⟩
      intro e he
      rcases List.mem_cons.1 he with rfl | he
      · simp
      · exact hm.nonempty e he
    · next e0 =>
      split
      · next hlt =>
        refine ⟨List.pairwise_cons.2 ⟨?_, h.sorted⟩, ?_⟩
        · intro e he
          rcases List.mem_cons.1 he with rfl | he
          · exact hlt
          · exact hlt.trans (hs.1 e he)
        · intro e he
          rcases List.mem_cons.1 he with rfl | he
          · simp
          · exact h.nonempty e he
      · next hlt =>
        have hgt : t' < t := lt_of_le_of_ne (not_lt.1 hlt) (Ne.symm e0)
        refine ⟨List.pairwise_cons.2 ⟨?_, (ih hm).sorted⟩, ?_⟩
        · intro e he
          rcases addLookup_keys he with h1 | ⟨e', h1, h2⟩
          · rw [h1]; exact hgt
          · rw [← h2]; exact hs.1 e' h1
        · intro e he
          rcases List.mem_cons.1 he with rfl | he
          · exact h.nonempty _ List.mem_cons_self
          · exact (ih hm).nonempty e he

theorem addLookup_get {m : Buckets p} (h : m.WF) (t : Tag) (c : List (AV p)) (u : Tag) :
    (addLookup m t c).get u = if u = t then m.get t ++ [c] else m.get u := by
  induction m with
  | nil =>
    by_cases hu : u = t
    · subst hu; simp [addLookup, Buckets.get]
    · simp [addLookup, Buckets.get, hu]
  | cons a m ih =>
    obtain ⟨t', l⟩ := a
    have hs := List.pairwise_cons.1 h.sorted
    have hm : Buckets.WF m := ⟨hs.2, fun e he => h.nonempty e (List.mem_cons_of_mem _ he)⟩
    rw [addLookup]
    split
    · next e0 =>
      subst e0
      by_cases hu : u = t <;> simp [Buckets.get, hu]
    · next e0 =>
      split
      · next hlt =>
        by_cases hu : u = t
        · subst hu
          have : Buckets.get m u = [] := Buckets.get_eq_nil fun e he => ne_of_gt (hlt.trans (hs.1 e he))
          simp [Buckets.get, e0, this]
        · simp [Buckets.get, hu]
      · by_cases hu : u = t'
        · subst hu
          simp [Buckets.get, Ne.symm e0]
        · have := ih hm
          by_cases hut : u = t
          · subst hut; simp [Buckets.get, hu] at this ⊢; exact this
          · simp [Buckets.get, hu, hut] at this ⊢; exact this

theorem addLookups_wf {m : Buckets p} (h : m.WF) (es : List (Tag × List (AV p))) : (addLookups m es).WF := by
  induction es generalizing m with
  | nil => exact h
  | cons e es ih => exact ih (addLookup_wf h e.1 e.2)

theorem addLookups_get {m : Buckets p} (h : m.WF) (es : List (Tag × List (AV p))) (u : Tag) :
    (addLookups m es).get u = m.get u ++ (es.filter fun e => decide (e.1 = u)).map Prod.snd := by
  induction es generalizing m with
  | nil => simp [addLookups]
  | cons e es ih =>
    have := ih (m := addLookup m e.1 e.2) (addLookup_wf h e.1 e.2)
    show (addLookups (addLookup m e.1 e.2) es).get u = _
    rw [this, addLookup_get h, List.filter_cons]
    by_cases hu : u = e.1
    · subst hu; simp
    · simp [hu, Ne.symm hu]

theorem Buckets.WF.nil : Buckets.WF ([] : Buckets p) := by constructor <;> simp

/-- Buckets are determined by the per-tag subsequences. -/
theorem addLookups_congr {m : Buckets p} (h : m.WF) {es es' : List (Tag × List (AV p))}
    (he : ∀ u, es.filter (fun e => decide (e.1 = u)) = es'.filter fun e => decide (e.1 = u)) :
    addLookups m es = addLookups m es' := by
  refine Buckets.ext' (addLookups_wf h _) (addLookups_wf h _) fun u => ?_
  rw [addLookups_get h, addLookups_get h, he u]

theorem Buckets.mem_all_of_get {m : Buckets p} {u : Tag} {c : List (AV p)} (h : c ∈ m.get u) : c ∈ m.all := by
  induction m with
  | nil => simp [Buckets.get] at h
  | cons a m ih =>
    obtain ⟨t, l⟩ := a
    rw [Buckets.get] at h
    unfold Buckets.all at ih ⊢
    rw [List.flatMap_cons]
    split at h
    · exact List.mem_append_left _ h
    · exact List.mem_append_right _ (ih h)

theorem Buckets.get_of_mem_all {m : Buckets p} (hw : m.WF) {c : List (AV p)} (h : c ∈ m.all) : ∃ u, c ∈ m.get u := by
  unfold Buckets.all at h
  obtain ⟨e, he, hc⟩ := List.mem_flatMap.1 h
  refine ⟨e.1, ?_⟩
  induction m with
  | nil => simp at he
  | cons a m ih =>
    obtain ⟨t, l⟩ := a
    have hs := List.pairwise_cons.1 hw.sorted
    rw [Buckets.get]
    rcases List.mem_cons.1 he with rfl | he
    · simpa using hc
    · rw [if_neg (ne_of_gt (hs.1 e he))]
      exact ih ⟨hs.2, fun e he => hw.nonempty e (List.mem_cons_of_mem _ he)⟩
        (List.mem_flatMap.2 ⟨e, he, hc⟩) he

/-- All queued tuples, no more and no less. -/
theorem addLookups_all_mem {es : List (Tag × List (AV p))} {c : List (AV p)} :
    c ∈ (addLookups [] es).all ↔ ∃ e ∈ es, e.2 = c := by
  constructor
  · intro h
    obtain ⟨u, hu⟩ := Buckets.get_of_mem_all (addLookups_wf Buckets.WF.nil es) h
    rw [addLookups_get Buckets.WF.nil] at hu
    simp only [Buckets.get, List.nil_append, List.mem_map, List.mem_filter] at hu
    obtain ⟨e, ⟨he, -⟩, rfl⟩ := hu
    exact ⟨e, he, rfl⟩
  · rintro ⟨e, he, rfl⟩
    refine Buckets.mem_all_of_get (u := e.1) ?_
    rw [addLookups_get Buckets.WF.nil]
    simp only [Buckets.get, List.nil_append, List.mem_map, List.mem_filter]
    exact ⟨e, ⟨he, by simp⟩, rfl⟩

/-! ## Sorting -/

theorem cellKey_inj : Function.Injective cellKey := by
  intro a b h
  simp only [cellKey, EmbeddingLike.apply_eq_iff_eq, Prod.mk.injEq] at h
  cases a; cases b; simp_all

theorem eqKey_inj : Function.Injective eqKey := by
  intro a b h
  simp only [eqKey, EmbeddingLike.apply_eq_iff_eq, Prod.mk.injEq] at h
  exact Prod.ext (cellKey_inj h.1) (cellKey_inj h.2)

theorem constKey_inj [NeZero p] : Function.Injective (constKey (p := p)) := by
  intro a b h
  simp only [constKey, EmbeddingLike.apply_eq_iff_eq, Prod.mk.injEq] at h
  exact Prod.ext (ZMod.val_injective p h.1) (cellKey_inj h.2)

theorem sort_perm_eq {α β : Type} [LinearOrder β] (k : α → β) (hk : Function.Injective k) {l l' : List α}
    (h : l.Perm l') : l.insertionSort (fun a b => k a ≤ k b) = l'.insertionSort (fun a b => k a ≤ k b) := by
  have : Std.Total fun a b : α => k a ≤ k b := ⟨fun a b => le_total _ _⟩
  have : IsTrans α fun a b : α => k a ≤ k b := ⟨fun a b c => le_trans⟩
  have : Std.Antisymm fun a b : α => k a ≤ k b := ⟨fun a b h1 h2 => hk (le_antisymm h1 h2)⟩
  refine List.Perm.eq_of_pairwise' (r := fun a b => k a ≤ k b) ?_ ?_ ?_
  · exact List.pairwise_insertionSort _ _
  · exact List.pairwise_insertionSort _ _
  · exact (List.perm_insertionSort _ _).trans (h.trans (List.perm_insertionSort _ _).symm)

theorem sortEqs_perm {l l' : List (Cell × Cell)} (h : l.Perm l') : sortEqs l = sortEqs l' := sort_perm_eq eqKey eqKey_inj h
theorem sortConsts_perm [NeZero p] {l l' : List (ZMod p × Cell)} (h : l.Perm l') : sortConsts l = sortConsts l' :=
  sort_perm_eq constKey constKey_inj h

/-! ## `parallelize_core` -/

/-- The tag of a context. -/
def Ctx.tag (s : Ctx p) : Tag := toLex (s.typeId, s.ctxId)

/-- The lookup pushes of a context, in program order: `add_lookup((ctx.type_id, ctx.context_id), [acc])`
(gates/range/mod.rs:555-559). -/
def lookupLog (s : Ctx p) : List (Tag × List (AV p)) := s.lookups.map fun a => (Ctx.tag s, [a])

/-- Outputs and contexts of the parallel section of `parallelize_core` (parallelize.rs:19-27): context
`thread_count + i` for the `i`-th input, created before the section starts; `f` works on its own context.  The pushes
to the shared managers are recorded in each context (`eqs`, `consts`, `lookups`); how they are interleaved in the
shared lists is given by `Merge`. -/
def parLoop {T R : Type} (wgo : Bool) (phase : ℕ) (typeId : String) (f : T → M p R) :
    ℕ → List T → Option (List R × List (Ctx p))
  | _, [] => some ([], [])
  | id, x :: xs => do
    let (r, s) ← f x (Ctx.new wgo phase typeId id [] [])
    let (rs, ss) ← parLoop wgo phase typeId f (id + 1) xs
    pure (r :: rs, s :: ss)

/-- `parallelize_core` (parallelize.rs:8-30) on a manager with threads `threads`. -/
def parallelizeCore {T R : Type} (wgo : Bool) (phase : ℕ) (typeId : String) (threads : List (Ctx p)) (input : List T)
    (f : T → M p R) : Option (List R × List (Ctx p)) := do
  let (rs, ss) ← parLoop wgo phase typeId f threads.length input
  pure (rs, threads ++ ss)

theorem parLoop_spec {T R : Type} {wgo : Bool} {phase : ℕ} {typeId : String} {f : T → M p R} (xs : List T) :
    ∀ {id : ℕ} {rs : List R} {ss : List (Ctx p)}, parLoop wgo phase typeId f id xs = some (rs, ss) →
    rs.length = xs.length ∧ ss.length = xs.length ∧
    ∀ i x, xs[i]? = some x → ∃ r s, rs[i]? = some r ∧ ss[i]? = some s ∧
      f x (Ctx.new wgo phase typeId (id + i) [] []) = some (r, s) := by
  induction xs with
  | nil => intro id rs ss h; simp [parLoop] at h; obtain ⟨rfl, rfl⟩ := h; simp
  | cons x xs ih =>
    intro id rs ss h
    simp only [parLoop, Option.bind_eq_bind, Option.bind_eq_some_iff, Option.pure_def, Option.some.injEq,
      Prod.mk.injEq] at h
    obtain ⟨⟨r, s⟩, h1, ⟨rs', ss'⟩, h2, rfl, rfl⟩ := h
    obtain ⟨a, b, c⟩ := ih h2
    refine ⟨by simp [a], by simp [b], ?_⟩
    intro i y hy
    cases i with
    | zero => simp at hy; subst hy; exact ⟨r, s, rfl, rfl, h1⟩
    | succ i =>
      simp only [List.getElem?_cons_succ] at hy
      obtain ⟨r', s', e1, e2, e3⟩ := c i y hy
      rw [show id + 1 + i = id + (i + 1) by omega] at e3
      exact ⟨r', s', e1, e2, e3⟩

end H2.Phys
