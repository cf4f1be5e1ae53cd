import Verif.Threads.Shared
import Verif.Props.BuilderOps

/-!
# C91: several builders

`deep_clone` makes a builder which builds the same circuit as its original and afterwards depends on nothing but the calls on itself, whatever is
done with the original and other builders.  `clone`, `set_copy_manager` and a range chip of another builder do not: the theorems say what
happens then, and concrete programs lose a constraint.
-/

set_option autoImplicit false
set_option linter.unusedSectionVars false
namespace H2.Bld
open H2 Phys
variable {p : ℕ}

/-- No other builder uses the managers of builder `i`. -/
def World.Private (w : World p) (i : ℕ) : Prop := ∃ h, w.bs[i]? = some h ∧ ∀ (j : ℕ) (g : Handle p), w.bs[j]? = some g → j ≠ i → g.cm ≠ h.cm ∧ ∀ r ∈ g.lookups, r ∉ h.lookups

/-- The call does not involve builder `i`, except that `i` may be deep-cloned. -/
def WOp.Away (i : ℕ) : WOp p → Prop
  | .new _ | .deepClone _ => True
  | .clone j | .freshCopyManager j => j ≠ i
  | .setCopyManager j k => j ≠ i ∧ k ≠ i
  | .call j k _ => j ≠ i ∧ k ≠ i

theorem getElem?_append_single {α : Type} {l : List α} {a x : α} {j : ℕ} (h : (l ++ [a])[j]? = some x) : l[j]? = some x ∨ j = l.length ∧ x = a := by
  rcases Nat.lt_trichotomy j l.length with hj | rfl | hj
  · rw [List.getElem?_append_left hj] at h
    exact .inl h
  · rw [List.getElem?_concat_length] at h
    exact .inr ⟨rfl, (Option.some.inj h).symm⟩
  · rw [List.getElem?_eq_none (by simp; omega)] at h
    cases h

theorem getElem?_append_old {α : Type} {l : List α} {a x : α} {j : ℕ} (h : l[j]? = some x) : (l ++ [a])[j]? = some x := by
  rw [List.getElem?_append_left (List.getElem?_eq_some_iff.1 h).1, h]

theorem getElem?_set_cases {α : Type} {l : List α} {a x : α} {i j : ℕ} (h : (l.set i a)[j]? = some x) :
    j ≠ i ∧ l[j]? = some x ∨ j = i ∧ x = a := by
  by_cases hj : i = j
  · subst hj
    rw [List.getElem?_set] at h
    split at h
    · split at h
      · exact .inr ⟨rfl, (Option.some.inj h).symm⟩
      · cases h
    · rename_i h'; exact absurd rfl h'
  · rw [List.getElem?_set_ne hj] at h
    exact .inl ⟨fun e => hj e.symm, h⟩

theorem alloc_fresh {w : World p} (ok : w.Ok) (c : CopyMgr p) (cs : List (Buckets p)) {g : Handle p} (hg : g ∈ w.bs) :
    g.cm ≠ w.ncm ∧ ∀ r ∈ g.lookups, r ∉ ((w.newCm c).newLks cs).2 := by
  refine ⟨Nat.ne_of_lt (ok.cm g hg), fun r hr h => ?_⟩
  rw [(newLks_spec cs (w.newCm c)).1, List.mem_range'_1] at h
  have := ok.lk g hg r hr
  exact absurd h.1 (not_le.2 this)

/-- A builder whose managers nobody else uses is not changed by a call that does not involve it. -/
theorem away_step {op : WOp p} {w w' : World p} (st : op.Step w w') (ok : w.Ok) {i : ℕ} (ha : op.Away i) (hp : w.Private i) :
    w'.Private i ∧ w'.bs[i]? = w.bs[i]? ∧ ∀ h, w.bs[i]? = some h → w'.view h = w.view h := by
  obtain ⟨h, hi, hp⟩ := hp
  have hm := List.mem_of_getElem? hi
  have hil := (List.getElem?_eq_some_iff.1 hi).1
  -- a new builder with new managers
  have hnew : ∀ (c : CopyMgr p) (cs : List (Buckets p)) (g : Handle p), g.cm = w.ncm → g.lookups = ((w.newCm c).newLks cs).2 →
      World.Private { ((w.newCm c).newLks cs).1 with bs := w.bs ++ [g] } i ∧ (w.bs ++ [g])[i]? = w.bs[i]? ∧
      ∀ h, w.bs[i]? = some h → World.view { ((w.newCm c).newLks cs).1 with bs := w.bs ++ [g] } h = w.view h := by
    intro c cs g hc hk
    refine ⟨⟨h, getElem?_append_old hi, fun j x hj hne => ?_⟩, List.getElem?_append_left hil, fun x hx => World.alloc_view ok _ _ _ (List.mem_of_getElem? hx)⟩
    rcases getElem?_append_single hj with hj | ⟨-, rfl⟩
    · exact hp j x hj hne
    · obtain ⟨f1, f2⟩ := alloc_fresh ok c cs hm
      rw [hc, hk]
      exact ⟨fun e => f1 e.symm, fun r hr hr' => f2 r hr' hr⟩
  cases op with
  | new wgo =>
    cases st
    exact hnew _ _ _ rfl rfl
  | clone j =>
    obtain ⟨g, hj, rfl⟩ := st
    refine ⟨⟨h, getElem?_append_old hi, fun k x hk hne => ?_⟩, List.getElem?_append_left hil, fun _ _ => rfl⟩
    rcases getElem?_append_single hk with hk | ⟨-, rfl⟩
    · exact hp k x hk hne
    · exact hp j x hj ha
  | deepClone j =>
    obtain ⟨g, hj, rfl⟩ := st
    exact hnew _ _ _ rfl rfl
  | setCopyManager j k =>
    obtain ⟨g, g', hj, hk, rfl⟩ := st
    refine ⟨⟨h, (List.getElem?_set_ne ha.1).trans hi, fun l x hl hne => ?_⟩, List.getElem?_set_ne ha.1, fun _ _ => rfl⟩
    rcases getElem?_set_cases hl with ⟨-, hl⟩ | ⟨-, rfl⟩
    · exact hp l x hl hne
    · exact ⟨(hp k g' hk ha.2).1, (hp j g hj ha.1).2⟩
  | freshCopyManager j =>
    obtain ⟨g, hj, rfl⟩ := st
    refine ⟨⟨h, (List.getElem?_set_ne ha).trans hi, fun l x hl hne => ?_⟩, List.getElem?_set_ne ha, fun x hx => ?_⟩
    · rcases getElem?_set_cases hl with ⟨-, hl⟩ | ⟨-, rfl⟩
      · exact hp l x hl hne
      · exact ⟨fun e => Nat.ne_of_lt (ok.cm h hm) e.symm, (hp j g hj ha).2⟩
    · have e : (w.newCm .empty).cms x.cm = w.cms x.cm := Function.update_of_ne (Nat.ne_of_lt (ok.cm x (List.mem_of_getElem? hx))) _ _
      simp only [World.view, e]
      rfl
  | call j k op =>
    obtain ⟨g, g', b, hj, hk, -, -, -, rfl⟩ := st
    refine ⟨⟨h, (List.getElem?_set_ne ha.1).trans hi, fun l x hl hne => ?_⟩, List.getElem?_set_ne ha.1, fun x hx => ?_⟩
    · rcases getElem?_set_cases hl with ⟨-, hl⟩ | ⟨-, rfl⟩
      · exact hp l x hl hne
      · exact hp j g hj ha.1
    · rw [hi] at hx
      obtain rfl := Option.some.inj hx
      refine write_view_other (h := { g with lookups := g'.lookups }) (fun e => (hp j g hj ha.1).1 e.symm) (fun r hr hr' => ?_) _
      exact (hp k g' hk ha.2).2 r hr' hr

/-- C91: as long as no other builder uses the managers of a builder, what that builder sees (and so the circuit it makes) does not depend on the calls on other
builders: `deep_clone` of it, and anything that does not involve it. -/
theorem C91_independent {ops : List (WOp p)} {w w' : World p} (hist : WHist ops w w') (ok : w.Ok) {i : ℕ} (hp : w.Private i) (ha : ∀ op ∈ ops, op.Away i) :
    w'.Private i ∧ w'.bs[i]? = w.bs[i]? ∧ ∀ h, w.bs[i]? = some h → w'.view h = w.view h := by
  induction hist with
  | nil => exact ⟨hp, rfl, fun _ _ => rfl⟩
  | cons st _ ih =>
    obtain ⟨h1, h2, h3⟩ := away_step st ok (ha _ (by simp)) hp
    obtain ⟨k1, k2, k3⟩ := ih (st.ok ok) h1 fun op ho => ha op (by simp [ho])
    exact ⟨k1, k2.trans h2, fun h hh => (k3 h (h2.trans hh)).trans (h3 h hh)⟩

/-- C91: `deep_clone` makes a builder that sees what the original sees, shares no manager with any builder, and changes no other. -/
theorem C91_deep_clone {w w' : World p} {i : ℕ} (ok : w.Ok) (st : (WOp.deepClone i).Step w w') {h : Handle p} (hi : w.bs[i]? = some h) :
    ∃ h', w'.bs = w.bs ++ [h'] ∧ w'.view h' = w.view h ∧ (∀ g ∈ w.bs, w'.view g = w.view g) ∧ w'.Private w.bs.length ∧
      ∀ j, w.Private j → w'.Private j := by
  obtain ⟨h1, hi', e⟩ := id st
  rw [hi] at hi'
  obtain rfl := Option.some.inj hi'
  refine ⟨_, congrArg World.bs e, ?_, fun g hg => ?_, ?_, fun j hj => (away_step st ok trivial hj).1⟩
  · rw [e]
    exact World.alloc_new w _ _ _ rfl rfl
  · rw [e]
    exact World.alloc_view ok _ _ _ hg
  · rw [e]
    refine ⟨_, List.getElem?_concat_length, fun j g hj hne => ?_⟩
    rcases getElem?_append_single hj with hj | ⟨e', -⟩
    · exact alloc_fresh ok _ _ (List.mem_of_getElem? hj)
    · exact absurd e' hne

/-- C91: a new builder is private and changes no other. -/
theorem C91_new {w w' : World p} {wgo : Bool} (ok : w.Ok) (st : (WOp.new wgo).Step w w') :
    ∃ h', w'.bs = w.bs ++ [h'] ∧ w'.view h' = Builder.new wgo ∧ (∀ g ∈ w.bs, w'.view g = w.view g) ∧ w'.Private w.bs.length ∧
      ∀ j, w.Private j → w'.Private j := by
  have st' := st
  cases st
  refine ⟨_, rfl, World.alloc_new w _ _ _ rfl rfl, fun g hg => World.alloc_view ok _ _ _ hg, ?_, fun j hj => (away_step st' ok trivial hj).1⟩
  refine ⟨_, List.getElem?_concat_length, fun j g hj hne => ?_⟩
  rcases getElem?_append_single hj with hj | ⟨e', -⟩
  · exact alloc_fresh ok _ _ (List.mem_of_getElem? hj)
  · exact absurd e' hne

/-! ### Programs that share nothing -/

/-- The calls of programs in which nothing is shared: new builders, deep clones, and calls on a builder with its own range chip. -/
def WOp.Separate : WOp p → Prop
  | .new _ | .deepClone _ => True
  | .call i j _ => j = i
  | _ => False

/-- For each builder its `witness_gen_only` flag and the calls made on it, beginning with those which had been made on its original when it was
cloned. -/
def lineage (acc : List (Bool × List (Op p))) : List (WOp p) → List (Bool × List (Op p))
  | [] => acc
  | .new wgo :: ops => lineage (acc ++ [(wgo, [])]) ops
  | .deepClone i :: ops => lineage (acc ++ (acc[i]?).toList) ops
  | .call i _ op :: ops => lineage (acc.modify i fun x => (x.1, x.2 ++ [op])) ops
  | _ :: ops => lineage acc ops

theorem Hist.snoc {ops : List (Op p)} {b b' b'' : Builder p} {op : Op p} (h : Hist ops b b') (ho : op.Ok) (st : op.Step b' b'') : Hist (ops ++ [op]) b b'' := by
  induction h with
  | nil => exact .cons ho st (.nil _)
  | cons h1 h2 _ ih => exact .cons h1 h2 (ih st)

/-- The state of a program that shares nothing. -/
structure Sep (w : World p) (acc : List (Bool × List (Op p))) : Prop where
  ok : w.Ok
  priv : ∀ i < w.bs.length, w.Private i
  len : acc.length = w.bs.length
  hist : ∀ (i : ℕ) (h : Handle p) (wgo : Bool) (ops : List (Op p)), w.bs[i]? = some h → acc[i]? = some (wgo, ops) → Hist ops (Builder.new wgo) (w.view h)

theorem Sep.step {op : WOp p} {w w' : World p} {acc : List (Bool × List (Op p))} (S : Sep w acc) (hs : op.Separate) (st : op.Step w w') :
    ∃ acc', (∀ ops, lineage acc (op :: ops) = lineage acc' ops) ∧ Sep w' acc' := by
  cases op with
  | clone i => exact hs.elim
  | setCopyManager i j => exact hs.elim
  | freshCopyManager i => exact hs.elim
  | new wgo =>
    obtain ⟨h', e1, e2, e3, e4, e5⟩ := C91_new S.ok st
    refine ⟨acc ++ [(wgo, [])], fun _ => rfl, st.ok S.ok, fun i hi => ?_, by rw [e1]; simp [S.len], fun j h v os hj ha => ?_⟩
    · rw [e1, List.length_append, List.length_singleton] at hi
      rcases Nat.lt_succ_iff_lt_or_eq.1 hi with hi | rfl
      · exact e5 i (S.priv i hi)
      · exact e4
    · rw [e1] at hj
      rcases getElem?_append_single hj with hj' | ⟨rfl, rfl⟩
      · rw [List.getElem?_append_left (by rw [S.len]; exact (List.getElem?_eq_some_iff.1 hj').1)] at ha
        rw [e3 h (List.mem_of_getElem? hj')]
        exact S.hist j h v os hj' ha
      · rw [← S.len, List.getElem?_concat_length] at ha
        cases ha
        rw [e2]
        exact .nil _
  | deepClone i =>
    obtain ⟨h, hi, -⟩ := id st
    obtain ⟨h', e1, e2, e3, e4, e5⟩ := C91_deep_clone S.ok st hi
    obtain ⟨⟨v0, os0⟩, ha0⟩ : ∃ x, acc[i]? = some x := by
      have := (List.getElem?_eq_some_iff.1 hi).1
      rw [← S.len] at this
      exact ⟨_, List.getElem?_eq_getElem this⟩
    refine ⟨acc ++ [(v0, os0)], fun ops => by simp [lineage, ha0], st.ok S.ok, fun j hj => ?_, by rw [e1]; simp [S.len], fun j x v os hj ha => ?_⟩
    · rw [e1, List.length_append, List.length_singleton] at hj
      rcases Nat.lt_succ_iff_lt_or_eq.1 hj with hj | rfl
      · exact e5 j (S.priv j hj)
      · exact e4
    · rw [e1] at hj
      rcases getElem?_append_single hj with hj' | ⟨rfl, rfl⟩
      · rw [List.getElem?_append_left (by rw [S.len]; exact (List.getElem?_eq_some_iff.1 hj').1)] at ha
        rw [e3 x (List.mem_of_getElem? hj')]
        exact S.hist j x v os hj' ha
      · rw [← S.len, List.getElem?_concat_length] at ha
        cases ha
        rw [e2]
        exact S.hist i h _ _ hi ha0
  | call i j op =>
    obtain rfl : j = i := hs
    have st' := st
    obtain ⟨h, g, b, hi, hj, -, hop, hst, rfl⟩ := st
    rw [hi] at hj
    obtain rfl := Option.some.inj hj
    have hm := List.mem_of_getElem? hi
    have hlen : b.lookups.length = h.lookups.length := by
      rw [step_lookups hst]
      simp [World.view]
    refine ⟨acc.modify j fun x => (x.1, x.2 ++ [op]), fun _ => rfl, st'.ok S.ok, fun k hk => ?_, by simp [S.len], fun k x v os hk ha => ?_⟩
    · simp only [List.length_set] at hk
      by_cases hkj : k = j
      · subst hkj
        obtain ⟨h2, h3, h4⟩ := S.priv k hk
        rw [hi] at h3
        obtain rfl := Option.some.inj h3
        refine ⟨h.own b, List.getElem?_set_self hk, fun l y hl hne => ?_⟩
        rcases getElem?_set_cases hl with ⟨-, hl⟩ | ⟨e, -⟩
        · exact h4 l y hl hne
        · exact absurd e hne
      · exact (away_step st' S.ok ⟨fun e => hkj e.symm, fun e => hkj e.symm⟩ (S.priv k hk)).1
    · by_cases hkj : k = j
      · subst hkj
        rw [List.getElem?_set_self (List.getElem?_eq_some_iff.1 hi).1] at hk
        obtain rfl := Option.some.inj hk
        simp only [List.getElem?_modify, if_true, Option.map_eq_map, Option.map_eq_some_iff] at ha
        obtain ⟨⟨v0, os0⟩, ha0, e⟩ := ha
        simp only [Prod.mk.injEq] at e
        obtain ⟨rfl, rfl⟩ := e
        have hv : World.view { w.write h b with bs := w.bs.set k (h.own b) } (h.own b) = b := write_view_self S.ok hm hlen _
        refine Eq.mp (congrArg (Hist (os0 ++ [op]) (Builder.new v0)) hv.symm) ?_
        exact (S.hist k h _ _ hi ha0).snoc hop hst
      · rw [List.getElem?_set_ne (fun e => hkj e.symm)] at hk
        have hjk : j ≠ k := fun e => hkj e.symm
        simp only [List.getElem?_modify, if_neg hjk, Option.map_eq_map, Option.map_id'] at ha
        have hkl := (List.getElem?_eq_some_iff.1 hk).1
        rw [(away_step st' S.ok ⟨fun e => hkj e.symm, fun e => hkj e.symm⟩ (S.priv k hkl)).2.2 x hk]
        exact S.hist k x v os hk ha

/-- C91: in a program in which nothing is shared every builder is in the state to which its own calls lead alone, beginning with those made on its original
before it was cloned; whatever is done with the other builders in between.  So C76 to C82 hold for each of them. -/
theorem C91_lineage {ops : List (WOp p)} {w : World p} (hist : WHist ops World.empty w) (hs : ∀ op ∈ ops, op.Separate) :
    (lineage [] ops).length = w.bs.length ∧ ∀ (i : ℕ) (h : Handle p), w.bs[i]? = some h → ∃ wgo os, (lineage [] ops)[i]? = some (wgo, os) ∧
      Hist os (Builder.new wgo) (w.view h) ∧ Reachable (w.view h) := by
  have key : ∀ {ops : List (WOp p)} {w w' : World p} (hist : WHist ops w w') (hs : ∀ op ∈ ops, op.Separate) (acc : List (Bool × List (Op p))), Sep w acc →
      Sep w' (lineage acc ops) := by
    intro ops w w' hist
    induction hist with
    | nil => exact fun _ acc S => S
    | cons st _ ih =>
      intro hs acc S
      obtain ⟨acc', e, S'⟩ := S.step (hs _ (by simp)) st
      rw [e]
      exact ih (fun op ho => hs op (by simp [ho])) acc' S'
  have S := key hist hs [] ⟨.empty, by simp [World.empty], rfl, by simp [World.empty]⟩
  refine ⟨S.len, fun i h hi => ?_⟩
  have hl : i < (lineage [] ops).length := by
    rw [S.len]
    exact (List.getElem?_eq_some_iff.1 hi).1
  have := S.hist i h (lineage [] ops)[i].1 (lineage [] ops)[i].2 hi (List.getElem?_eq_getElem hl)
  exact ⟨_, _, List.getElem?_eq_getElem hl, this, _, _, this⟩

/-- Every history of one builder is one of a program that shares nothing. -/
theorem realize {wgo : Bool} {os : List (Op p)} {b : Builder p} (h : Hist os (Builder.new wgo) b) :
    ∃ w h', WHist (WOp.new wgo :: os.map (WOp.call 0 0)) World.empty w ∧ w.Ok ∧ w.bs = [h'] ∧ w.view h' = b := by
  obtain ⟨w0, h0⟩ : ∃ w0 : World p, (WOp.new wgo).Step World.empty w0 := ⟨_, rfl⟩
  obtain ⟨g, e1, e2, -, -, -⟩ := C91_new .empty h0
  have ok0 := h0.ok .empty
  have key : ∀ {os : List (Op p)} {b0 b : Builder p} (hist : Hist os b0 b) {w : World p} {g : Handle p}, w.Ok → w.bs = [g] → w.view g = b0 →
      ∃ w' h', WHist (os.map (WOp.call 0 0)) w w' ∧ w'.Ok ∧ w'.bs = [h'] ∧ w'.view h' = b := by
    intro os b0 b hist
    induction hist with
    | nil => exact fun ok e ev => ⟨_, _, .nil _, ok, e, ev⟩
    | @cons op ops c c' c'' ho st _ ih =>
      intro w g ok e ev
      have hm : g ∈ w.bs := by rw [e]; simp
      have hi : w.bs[0]? = some g := by rw [e]; rfl
      have hs : (WOp.call 0 0 op).Step w { w.write g c' with bs := w.bs.set 0 (g.own c') } := ⟨g, g, c', hi, hi, .inl rfl, ho, ev ▸ st, rfl⟩
      have hlen : c'.lookups.length = g.lookups.length := by
        rw [step_lookups st, ← ev]
        simp [World.view]
      obtain ⟨w', h', k1, k2, k3, k4⟩ := ih (hs.ok ok) (g := g.own c') (by simp [e]) (write_view_self ok hm hlen _)
      exact ⟨w', h', .cons hs k1, k2, k3, k4⟩
  obtain ⟨w, h', k1, k2, k3, k4⟩ := key h ok0 (w := w0) (g := g) e1 e2
  exact ⟨w, h', .cons h0 k1, k2, k3, k4⟩

/-! ### Programs that share -/

/-- C91: after `clone` the two builders share all managers: a call on one changes what the other sees of them, but not its own contexts. -/
theorem C91_clone_shares {w w1 w2 : World p} {i : ℕ} (ok : w.Ok) (st : (WOp.clone i).Step w w1) {op : Op p} (st2 : (WOp.call i i op).Step w1 w2)
    {h : Handle p} (hi : w.bs[i]? = some h) :
    ∃ g b, w2.bs[i]? = some g ∧ w2.view g = b ∧ op.Step (w.view h) b ∧
      w2.bs[w.bs.length]? = some h ∧ w2.view h = { w.view h with cm := b.cm, lookups := b.lookups } := by
  obtain ⟨h1, hi1, e1⟩ := id st
  rw [hi] at hi1
  obtain rfl := Option.some.inj hi1
  have ok1 := st.ok ok
  subst e1
  obtain ⟨g1, g2, b, hj, hk, -, -, hst, rfl⟩ := st2
  rw [getElem?_append_old hi] at hj hk
  obtain rfl := Option.some.inj hj
  obtain rfl := Option.some.inj hk
  have hil := (List.getElem?_eq_some_iff.1 hi).1
  have hm : h ∈ w.bs := List.mem_of_getElem? hi
  have hlen : b.lookups.length = h.lookups.length := by
    rw [step_lookups hst]
    simp [World.view]
  refine ⟨h.own b, b, List.getElem?_set_self (by simp; omega), write_view_self (w := { w with bs := w.bs ++ [h] }) ok1 (by simp) hlen _, hst, ?_, ?_⟩
  · rw [List.getElem?_set_ne (Nat.ne_of_lt hil)]
    exact List.getElem?_concat_length
  · have h3 : World.view { World.write { w with bs := w.bs ++ [h] } h b with bs := (w.bs ++ [h]).set i (h.own b) } (h.own b) = b :=
      write_view_self (w := { w with bs := w.bs ++ [h] }) ok1 (by simp) hlen _
    exact Builder.mk.injEq .. |>.mpr ⟨rfl, rfl, rfl, congrArg Builder.cm h3, congrArg Builder.lookups h3, rfl, rfl⟩

/-- C91: `set_copy_manager` forgets what was recorded and takes over what the other builder recorded. -/
theorem C91_set_copy_manager {w w' : World p} {i j : ℕ} (st : (WOp.setCopyManager i j).Step w w') {h g : Handle p} (hi : w.bs[i]? = some h)
    (hj : w.bs[j]? = some g) : ∃ h', w'.bs[i]? = some h' ∧ w'.view h' = { w.view h with cm := (w.view g).cm } := by
  obtain ⟨h1, g1, hi1, hj1, rfl⟩ := st
  rw [hi] at hi1
  rw [hj] at hj1
  obtain rfl := Option.some.inj hi1
  obtain rfl := Option.some.inj hj1
  exact ⟨_, List.getElem?_set_self (List.getElem?_eq_some_iff.1 hi).1, rfl⟩

theorem C91_fresh_copy_manager {w w' : World p} {i : ℕ} (st : (WOp.freshCopyManager i).Step w w') {h : Handle p} (hi : w.bs[i]? = some h) :
    ∃ h', w'.bs[i]? = some h' ∧ w'.view h' = { w.view h with cm := .empty } := by
  obtain ⟨h1, hi1, rfl⟩ := st
  rw [hi] at hi1
  obtain rfl := Option.some.inj hi1
  refine ⟨_, List.getElem?_set_self (List.getElem?_eq_some_iff.1 hi).1, ?_⟩
  simp [World.view, World.newCm]

/-- C91: a program run on builder `i` with the range chip of builder `j` queues its lookups at `j`: builder `i` has the new contexts and their copies but the
old lookups. -/
theorem C91_foreign_range_chip {w w' : World p} {i j : ℕ} {op : Op p} (st : (WOp.call i j op).Step w w') {h g : Handle p}
    (hi : w.bs[i]? = some h) (hj : w.bs[j]? = some g) (hd : ∀ r ∈ h.lookups, r ∉ g.lookups) :
    ∃ h' b, op.Step { w.view h with lookups := (w.view g).lookups } b ∧ w'.bs[i]? = some h' ∧
      w'.view h' = { b with lookups := (w.view h).lookups } := by
  obtain ⟨h1, g1, b, hi1, hj1, -, -, hst, rfl⟩ := st
  rw [hi] at hi1
  rw [hj] at hj1
  obtain rfl := Option.some.inj hi1
  obtain rfl := Option.some.inj hj1
  refine ⟨h.own b, b, hst, List.getElem?_set_self (List.getElem?_eq_some_iff.1 hi).1, ?_⟩
  have e : h.lookups.map (writeAll w.lks g.lookups b.lookups) = h.lookups.map w.lks := List.map_congr_left fun r hr => writeAll_ne w.lks (hd r hr)
  simp only [World.view, World.write, Handle.own, Function.update_self, e]

/-! ### Constraints that get lost -/

/-- Two witnesses, constrained to be equal. -/
def progEq : M 101 Unit := do
  let a ← loadWitness 1
  let b ← loadWitness 2
  constrainEqual a b

theorem progEq_prog : CtxProg progEq := .bind (.loadWitness _) fun _ => .bind (.loadWitness _) fun _ => .constrainEqual _ _

/-- A witness that is looked up in the table of the numbers below 4. -/
def progLk : M 101 Unit := do
  let a ← loadWitness 50
  addCellToLookup a

theorem progLk_prog : CtxProg progLk := .bind (.loadWitness _) fun _ => .addCellToLookup _

def shParams : Params := ⟨4, [2], 1, [1, 0, 0], some 2, 0⟩

def shEmpty : Option (Builder 101) := (Builder.new false : Builder 101).setParams shParams
def shEq : Option (Builder 101) := shEmpty.bind fun b => (b.main 0 progEq).map Prod.snd
def shLk : Option (Builder 101) := shEmpty.bind fun b => (b.main 0 progLk).map Prod.snd

/-- The numbers below 4. -/
def tbl4 : List (ZMod 101) → Prop := fun l => ∀ x ∈ l, x.val < 4

theorem shEmpty_hist {b : Builder 101} (h : shEmpty = some b) : Hist [.setParams shParams] (Builder.new false) b := .cons trivial h (.nil _)

theorem shEq_hist {b : Builder 101} (h : shEq = some b) : Hist [.setParams shParams, .main 0 progEq] (Builder.new false) b := by
  simp only [shEq, Option.bind_eq_some_iff, Option.map_eq_some_iff] at h
  obtain ⟨b0, h0, ⟨r, b1⟩, h1, rfl⟩ := h
  exact .cons trivial h0 (.cons progEq_prog ⟨r, h1⟩ (.nil _))

/-- A circuit without gates, copies and fixed cells is satisfied by everything that keeps the lookup columns in the table. -/
theorem psat_of_empty {cfg : Cfg} {reg : Region 101} (h : (reg.copies.length, reg.fixed.length, reg.sel.length, reg.qlk.length) = (0, 0, 0, 0)) (v : PCell → ZMod 101)
    (hv : ∀ i r, (v ⟨.lookup i 0, r⟩).val < 4) : Phys.PSat cfg tbl4 1 reg v := by
  simp only [Prod.mk.injEq, List.length_eq_zero_iff] at h
  obtain ⟨h1, h2, h3, h4⟩ := h
  refine ⟨by simp [h3], by simp [h1], by simp [h2], fun i _ r _ x hx => ?_, by simp [h4]⟩
  simp only [List.range_one, List.map_cons, List.map_nil, List.mem_singleton] at hx
  rw [hx]
  exact hv i r

/-- An assignment with the given values in the first two rows of the first column and `0` everywhere else. -/
def twoValues (a b : ZMod 101) : PCell → ZMod 101 := fun c => if c = ⟨.advice 0, 0⟩ then a else if c = ⟨.advice 0, 1⟩ then b else 0

theorem twoValues_lookup (a b : ZMod 101) (i r : ℕ) : (twoValues a b ⟨.lookup i 0, r⟩).val < 4 := by
  simp [twoValues]

/-- C91: setting another copy manager after constraints were recorded loses them: a circuit with two cells constrained to be equal (every satisfying assignment
agrees on them) becomes one that is satisfied with `1` and `2` there. -/
theorem C91_set_copy_manager_drops : ∃ (w : World 101) (h : Handle 101),
    WHist [.new false, .call 0 0 (.setParams shParams), .call 0 0 (.main 0 progEq)] World.empty w ∧ w.bs = [h] ∧
    (∃ reg b', (w.view h).synthesize 7 7 = some (reg, b') ∧
      ∀ v, Phys.PSat ((w.view h).cfg 7 7) tbl4 1 reg v → v ⟨.advice 0, 0⟩ = v ⟨.advice 0, 1⟩) ∧
    ∃ w' h', (WOp.freshCopyManager 0).Step w w' ∧ w'.bs[0]? = some h' ∧
      ∃ reg b' v, (w'.view h').synthesize 7 7 = some (reg, b') ∧ Phys.PSat ((w'.view h').cfg 7 7) tbl4 1 reg v ∧ v ⟨.advice 0, 0⟩ = 1 ∧ v ⟨.advice 0, 1⟩ = 2 := by
  have h1 : shEq.isSome = true := by decide +kernel
  obtain ⟨b, hb⟩ := Option.isSome_iff_exists.1 h1
  obtain ⟨w, h, hw, ok, e, ev⟩ := realize (shEq_hist hb)
  refine ⟨w, h, hw, e, ?_, ?_⟩
  · rw [ev]
    have h2 : (shEq.bind fun b => (b.synthesize 7 7).map fun x => x.1.copies) = some [(⟨.advice 0, 0⟩, ⟨.advice 0, 1⟩)] := by decide +kernel
    rw [hb, Option.bind_some, Option.map_eq_some_iff] at h2
    obtain ⟨⟨reg, b'⟩, h2, h3⟩ := h2
    exact ⟨reg, b', h2, fun v hv => hv.copy (⟨.advice 0, 0⟩, ⟨.advice 0, 1⟩) (by rw [h3]; simp)⟩
  · have hi : w.bs[0]? = some h := by rw [e]; rfl
    obtain ⟨w', hw'⟩ : ∃ w', (WOp.freshCopyManager 0).Step w w' := ⟨_, h, hi, rfl⟩
    obtain ⟨h', hi', ev'⟩ := C91_fresh_copy_manager hw' hi
    refine ⟨w', h', hw', hi', ?_⟩
    rw [ev', ev]
    have h2 : (shEq.bind fun b => ((Builder.synthesize { b with cm := .empty } 7 7).map fun x => (x.1.copies.length, x.1.fixed.length, x.1.sel.length, x.1.qlk.length))) = some (0, 0, 0, 0) := by
      decide +kernel
    rw [hb, Option.bind_some, Option.map_eq_some_iff] at h2
    obtain ⟨⟨reg, b'⟩, h2, h3⟩ := h2
    exact ⟨reg, b', twoValues 1 2, h2, psat_of_empty h3 _ (twoValues_lookup 1 2), by decide +kernel, by decide +kernel⟩

/-- C91: a range chip made by the original and used with a context of its deep clone: the clone's circuit does not check the range. -/
theorem C91_foreign_range_chip_unchecked : ∃ (w : World 101) (h : Handle 101),
    WHist [.new false, .call 0 0 (.setParams shParams), .deepClone 0, .call 1 0 (.main 0 progLk)] World.empty w ∧ w.bs[1]? = some h ∧
    (∀ t ∈ (w.view h).contexts, t.lookups.length = 1) ∧ (w.view h).contexts.length = 1 ∧
    ∃ reg b' v, (w.view h).synthesize 7 7 = some (reg, b') ∧ Phys.PSat ((w.view h).cfg 7 7) tbl4 1 reg v ∧ v ⟨.advice 0, 0⟩ = 50 := by
  have h1 : shEmpty.isSome = true := by decide +kernel
  obtain ⟨b, hb⟩ := Option.isSome_iff_exists.1 h1
  obtain ⟨w, h, hw, ok, e, ev⟩ := realize (shEmpty_hist hb)
  have hi : w.bs[0]? = some h := by rw [e]; rfl
  obtain ⟨w1, hw1⟩ : ∃ w', (WOp.deepClone 0).Step w w' := ⟨_, h, hi, rfl⟩
  obtain ⟨g, e1, e2, e3, e4, -⟩ := C91_deep_clone ok hw1 hi
  rw [e] at e1 e4
  have hg1 : w1.bs[1]? = some g := by rw [e1]; rfl
  have hg0 : w1.bs[0]? = some h := by rw [e1]; rfl
  have hv0 : w1.view h = b := (e3 h (by rw [e]; simp)).trans ev
  have hv1 : w1.view g = b := e2.trans ev
  have h2 : shLk.isSome = true := by decide +kernel
  obtain ⟨c, hc⟩ := Option.isSome_iff_exists.1 h2
  have hc' := hc
  simp only [shLk, hb, Option.bind_some, Option.map_eq_some_iff] at hc'
  obtain ⟨⟨r, c'⟩, hc', rfl⟩ := hc'
  have hst : (Op.main 0 progLk).Step (w1.view { g with lookups := h.lookups }) c' := by
    have : w1.view { g with lookups := h.lookups } = b := by
      have a1 : w1.view { g with lookups := h.lookups } = { w1.view g with lookups := (w1.view h).lookups } := rfl
      rw [a1, hv0, hv1]
    rw [this]
    exact ⟨r, hc'⟩
  obtain ⟨w2, hw2⟩ : ∃ w', (WOp.call 1 0 (Op.main 0 progLk)).Step w1 w' := ⟨_, g, h, c', hg1, hg0, .inr trivial, progLk_prog, hst, rfl⟩
  have hd : ∀ r ∈ g.lookups, r ∉ h.lookups := by
    obtain ⟨x, hx, hp⟩ := e4
    have hx' : some g = some x := hg1.symm.trans hx
    obtain rfl := Option.some.inj hx'
    intro r hr hr'
    exact (hp 0 h hg0 (by simp)).2 r hr' hr
  obtain ⟨h', c2, hs2, hi2, ev2⟩ := C91_foreign_range_chip hw2 hg1 hg0 hd
  have hc2 : c2 = c' := by
    obtain ⟨r2, hs2⟩ := hs2
    rw [hv0, hv1] at hs2
    have h3 : b.main 0 progLk = some (r2, c2) := hs2
    rw [hc'] at h3
    exact (congrArg Prod.snd (Option.some.inj h3)).symm
  subst hc2
  refine ⟨w2, h', ?_, hi2, ?_⟩
  · have happ : ∀ {ops ops' : List (WOp 101)} {a b c : World 101}, WHist ops a b → WHist ops' b c → WHist (ops ++ ops') a c := by
      intro ops ops' a b c k k'
      induction k with
      | nil => exact k'
      | cons st _ ih => exact .cons st (ih k')
    exact happ hw (.cons hw1 (.cons hw2 (.nil _)))
  · rw [ev2, hv1]
    have hl : b.lookups = [[], [], []] := by
      have : (shEmpty.map fun b => b.lookups.map fun m => m.length) = some [0, 0, 0] := by decide +kernel
      rw [hb, Option.map_some, Option.some.injEq] at this
      have key : ∀ l : List (Buckets 101), (l.map fun m => m.length) = [0, 0, 0] → l = [[], [], []] := by
        rintro (_ | ⟨x, _ | ⟨y, _ | ⟨z, _ | _⟩⟩⟩) h <;> simp at h ⊢
        exact h
      exact key _ this
    rw [hl]
    have h3 : (shLk.map fun b => b.contexts.map fun t => t.lookups.length) = some [1] := by decide +kernel
    have h4 : (shLk.bind fun b => ((Builder.synthesize { b with lookups := [[], [], []] } 7 7).map fun x => (x.1.copies.length, x.1.fixed.length, x.1.sel.length, x.1.qlk.length))) = some (0, 0, 0, 0) := by
      decide +kernel
    rw [hc, Option.map_some, Option.some.injEq] at h3
    rw [hc, Option.bind_some, Option.map_eq_some_iff] at h4
    obtain ⟨⟨reg, b'⟩, h4, h5⟩ := h4
    refine ⟨fun t ht => ?_, ?_, reg, b', twoValues 50 0, h4, psat_of_empty h5 _ (twoValues_lookup 50 0), by decide +kernel⟩
    · have : t.lookups.length ∈ c2.contexts.map fun t => t.lookups.length := List.mem_map_of_mem ht
      rw [h3] at this
      simpa using this
    · have h6 := congrArg List.length h3
      rw [List.length_map] at h6
      exact h6

/-- C91: a constraint recorded by the original after `clone` reaches the clone, which does not have the cells: `synthesize` of the clone panics, and so it does
not after `deep_clone`. -/
theorem C91_clone_panics : ∃ (w w1 w2 : World 101) (g : Handle 101), WHist [.new false, .call 0 0 (.setParams shParams)] World.empty w ∧
    (WOp.clone 0).Step w w1 ∧ (WOp.call 0 0 (.main 0 progEq)).Step w1 w2 ∧ w2.bs[1]? = some g ∧
    ((w1.view g).synthesize 7 7).isSome ∧ (w2.view g).synthesize 7 7 = none := by
  have h1 : shEmpty.isSome = true := by decide +kernel
  obtain ⟨b, hb⟩ := Option.isSome_iff_exists.1 h1
  obtain ⟨w, h, hw, ok, e, ev⟩ := realize (shEmpty_hist hb)
  have hi : w.bs[0]? = some h := by rw [e]; rfl
  obtain ⟨w1, hw1⟩ : ∃ w', (WOp.clone 0).Step w w' := ⟨_, h, hi, rfl⟩
  have hw1' := hw1
  obtain ⟨h', hi', ew1⟩ := hw1'
  rw [hi] at hi'
  obtain rfl := Option.some.inj hi'
  have hv1 : w1.view h = b := by rw [ew1]; exact ev
  have hi1 : w1.bs[0]? = some h := by rw [ew1, e]; rfl
  have h2 : shEq.isSome = true := by decide +kernel
  obtain ⟨c, hc⟩ := Option.isSome_iff_exists.1 h2
  have hc' := hc
  simp only [shEq, hb, Option.bind_some, Option.map_eq_some_iff] at hc'
  obtain ⟨⟨r, c'⟩, hc', rfl⟩ := hc'
  have hst : (Op.main 0 progEq).Step (w1.view h) c' := by rw [hv1]; exact ⟨r, hc'⟩
  obtain ⟨w2, hw2⟩ : ∃ w', (WOp.call 0 0 (Op.main 0 progEq)).Step w1 w' := ⟨_, h, h, c', hi1, hi1, .inl rfl, progEq_prog, hst, rfl⟩
  obtain ⟨x, c2, -, -, hs2, hx, ev2⟩ := C91_clone_shares ok hw1 hw2 hi
  have hc2 : c2 = c' := by
    obtain ⟨r2, hs2⟩ := hs2
    rw [ev] at hs2
    have h3 : b.main 0 progEq = some (r2, c2) := hs2
    rw [hc'] at h3
    exact (congrArg Prod.snd (Option.some.inj h3)).symm
  subst hc2
  refine ⟨w, w1, w2, h, hw, hw1, hw2, by rw [e] at hx; exact hx, ?_, ?_⟩
  · rw [hv1]
    have h3 : (shEmpty.bind fun b => (b.synthesize 7 7).map fun _ => ()) = some () := by decide +kernel
    rw [hb, Option.bind_some, Option.map_eq_some_iff] at h3
    obtain ⟨y, h3, -⟩ := h3
    rw [h3]
    rfl
  · rw [ev2, ev]
    have h3 : (shEmpty.bind fun b => shEq.map fun c => (Builder.synthesize { b with cm := c.cm, lookups := c.lookups } 7 7).isSome) = some false := by decide +kernel
    rw [hb, Option.bind_some, hc, Option.map_some, Option.some.injEq] at h3
    exact Option.not_isSome_iff_eq_none.1 (by simp only [h3]; exact Bool.false_ne_true)

end H2.Bld
