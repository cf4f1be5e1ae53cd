import Verif.Threads.Pool
import Verif.Core.Run

/-!
# Completeness of routines that work on a pool of contexts

`Hon ext S w`: the assignment `w` agrees with the (evaluated) advice of every thread of `S`, and with `ext` on the cells of other
managers.  A state of the pool is good if the honest assignment satisfies everything, however the cells that do not exist yet are filled.
-/

set_option autoImplicit false
set_option linter.unusedSectionVars false
namespace H2
variable {p : ℕ} [Fact p.Prime]

/-- `w` agrees with everything the pool has assigned. -/
structure Hon (ext : Cell → ZMod p) (S : Pool p) (w : Cell → ZMod p) : Prop where
  thr : ∀ t ∈ S.threads, ∀ j < t.advice.length, w (t.cellAt j) = valAt t j
  foreign : ∀ c : Cell, c.typeId ≠ S.typeId → w c = ext c

/-- The honest assignment of a pool: the value of a cell of thread `i` is its evaluated advice; other cells hold `ext`. -/
def poolW (ext : Cell → ZMod p) (S : Pool p) (c : Cell) : ZMod p :=
  if c.typeId = S.typeId then
    match S.threads[c.ctxId]? with
    | some t => valAt t c.offset
    | none => ext c
  else ext c

/-- The threads carry the identifiers that `new_context` gives them (single_phase.rs:113-121). -/
def PIds (S : Pool p) : Prop := ∀ (i : ℕ) (t : Ctx p), S.threads[i]? = some t → t.typeId = S.typeId ∧ t.ctxId = i

/-- The pool of an honest key generation run. -/
structure PGood (tbl : ZMod p → Prop) (ext : Cell → ZMod p) (S : Pool p) : Prop where
  wgo : S.wgo = false
  ids : PIds S
  good : ∀ w, Hon ext S w → ∀ t ∈ S.threads, Good tbl w t

/-- Every thread is still there, extended. -/
structure PLe (S S' : Pool p) : Prop where
  typeId : S'.typeId = S.typeId
  thr : ∀ (i : ℕ) (t : Ctx p), S.threads[i]? = some t → ∃ t' : Ctx p, S'.threads[i]? = some t' ∧ Ext t t'

/-- `s` may be the current state of one of the contexts of the pool, present or future. -/
structure Member (S : Pool p) (s : Ctx p) : Prop where
  typeId : s.typeId = S.typeId
  ext : ∀ t, S.threads[s.ctxId]? = some t → Ext t s

/-- `φ` holds in all contexts of the pool, however the missing cells are filled. -/
def PHolds (ext : Cell → ZMod p) (S : Pool p) (φ : (Cell → ZMod p) → Ctx p → Prop) : Prop :=
  ∀ w, Hon ext S w → ∀ s, Member S s → φ w s

theorem PLe.refl (S : Pool p) : PLe S S := ⟨rfl, fun _ t h => ⟨t, h, .refl t⟩⟩

theorem PLe.trans {S T U : Pool p} (h : PLe S T) (k : PLe T U) : PLe S U := by
  refine ⟨k.typeId.trans h.typeId, fun i t ht => ?_⟩
  obtain ⟨t1, h1, e1⟩ := h.thr i t ht
  obtain ⟨t2, h2, e2⟩ := k.thr i t1 h1
  exact ⟨t2, h2, e1.trans e2⟩

theorem Hon.mono {ext w : Cell → ZMod p} {S S' : Pool p} (h : Hon ext S' w) (e : PLe S S') : Hon ext S w := by
  refine ⟨fun t ht j hj => ?_, fun c hc => h.foreign c (by rwa [e.typeId])⟩
  obtain ⟨i, hi⟩ := List.getElem?_of_mem ht
  obtain ⟨t', ht', ex⟩ := e.thr i t hi
  rw [← ex.cellAt, ← ex.valAt hj]
  exact h.thr t' (List.mem_of_getElem? ht') j (lt_of_lt_of_le hj ex.length)

theorem Member.mono {S S' : Pool p} {s : Ctx p} (h : Member S' s) (e : PLe S S') : Member S s := by
  refine ⟨h.typeId.trans e.typeId, fun t ht => ?_⟩
  obtain ⟨t', ht', ex⟩ := e.thr _ t ht
  exact ex.trans (h.ext t' ht')

theorem PHolds.mono {ext : Cell → ZMod p} {S S' : Pool p} {φ : (Cell → ZMod p) → Ctx p → Prop} (h : PHolds ext S φ)
    (e : PLe S S') : PHolds ext S' φ := fun w hw s hs => h w (hw.mono e) s (hs.mono e)

theorem PHolds.imp {ext : Cell → ZMod p} {S : Pool p} {φ ψ : (Cell → ZMod p) → Ctx p → Prop} (h : PHolds ext S φ)
    (k : ∀ w s, φ w s → ψ w s) : PHolds ext S ψ := fun w hw s hs => k w s (h w hw s hs)

theorem hon_poolW {ext : Cell → ZMod p} {S : Pool p} (h : PIds S) : Hon ext S (poolW ext S) := by
  refine ⟨fun t ht j hj => ?_, fun c hc => by rw [poolW, if_neg hc]⟩
  obtain ⟨i, hi⟩ := List.getElem?_of_mem ht
  obtain ⟨h1, h2⟩ := h i t hi
  simp only [poolW, Ctx.cellAt, h1, if_true, h2, hi]

theorem member_new {S : Pool p} {i : ℕ} (hi : S.threads.length ≤ i) :
    Member S (Ctx.new S.wgo S.phase S.typeId i [] []) := by
  refine ⟨rfl, fun t ht => ?_⟩
  rw [List.getElem?_eq_none (by exact hi)] at ht
  cases ht

theorem PHolds.forall₂ {A B : Type} {ext : Cell → ZMod p} {S : Pool p} (hid : PIds S) {φ : (Cell → ZMod p) → Ctx p → A → B → Prop}
    {as : List A} {bs : List B} (h : PHolds ext S (fun w s => as.Forall₂ (φ w s) bs)) :
    as.Forall₂ (fun a b => PHolds ext S fun w s => φ w s a b) bs := by
  rw [List.forall₂_iff_get]
  refine ⟨(h _ (hon_poolW hid) _ (member_new le_rfl)).length_eq, fun i hi hi' w hw s hs => ?_⟩
  exact (List.forall₂_iff_get.1 (h w hw s hs)).2 i hi hi'

theorem member_mem {S : Pool p} (h : PIds S) {s : Ctx p} (hs : s ∈ S.threads) : Member S s := by
  obtain ⟨i, hi⟩ := List.getElem?_of_mem hs
  obtain ⟨h1, h2⟩ := h i s hi
  refine ⟨h1, fun t ht => ?_⟩
  rw [h2, hi] at ht
  cases ht
  exact .refl _

/-- In a thread of the pool, the honest assignment of the pool is that of the thread. -/
theorem hw_poolW {ext : Cell → ZMod p} {S : Pool p} (h : PIds S) {s : Ctx p} (hs : s ∈ S.threads) : hw (poolW ext S) s = poolW ext S := by
  obtain ⟨i, hi⟩ := List.getElem?_of_mem hs
  obtain ⟨h1, h2⟩ := h i s hi
  funext c
  unfold hw
  split
  · rename_i ho
    rw [poolW, if_pos (ho.1.trans h1), ho.2, h2, hi]
  · rfl

theorem PGood.sat {tbl : ZMod p → Prop} {ext : Cell → ZMod p} {S : Pool p} (h : PGood tbl ext S) : PSat tbl S (poolW ext S) := by
  intro s hs
  have := (h.good _ (hon_poolW h.ids) s hs).sat
  rwa [hw_poolW h.ids hs] at this

/-! ### Facts that only depend on the values of some cells -/

/-- `φ` only depends on the values of the assigned cells `avs`, and implies that they are assigned. -/
structure MovA (avs : List (AV p)) (φ : (Cell → ZMod p) → Ctx p → Prop) : Prop where
  con : ∀ {w s}, φ w s → ∀ v ∈ avs, ∃ x, Con w s v x
  move : ∀ {w s w' s'}, φ w s → (∀ v ∈ avs, ∀ x, Con w s v x → Con w' s' v x) → φ w' s'

/-- `φ` only depends on the values of some assigned cells. -/
def Mov (φ : (Cell → ZMod p) → Ctx p → Prop) : Prop := ∃ avs, MovA avs φ

theorem Mov.const (a : Prop) : Mov (p := p) fun _ _ => a := ⟨[], ⟨fun _ v hv => absurd hv List.not_mem_nil, fun h _ => h⟩⟩

theorem Mov.con (v : AV p) (x : ZMod p) : Mov (fun w s => Con w s v x) :=
  ⟨[v], fun h u hu => by rw [List.mem_singleton.1 hu]; exact ⟨x, h⟩, fun h k => k v (by simp) x h⟩

theorem Mov.and {φ ψ : (Cell → ZMod p) → Ctx p → Prop} (h : Mov φ) (k : Mov ψ) : Mov (fun w s => φ w s ∧ ψ w s) := by
  obtain ⟨a, ha⟩ := h
  obtain ⟨b, hb⟩ := k
  refine ⟨a ++ b, fun h v hv => ?_, fun h k => ⟨ha.move h.1 fun v hv => k v (by simp [hv]), hb.move h.2 fun v hv => k v (by simp [hv])⟩⟩
  rcases List.mem_append.1 hv with hv | hv
  · exact ha.con h.1 v hv
  · exact hb.con h.2 v hv

theorem Mov.ex {A : Type} {φ : A → (Cell → ZMod p) → Ctx p → Prop} {avs : List (AV p)} (h : ∀ a, MovA avs (φ a)) :
    Mov (fun w s => ∃ a, φ a w s) :=
  ⟨avs, fun ⟨a, ha⟩ v hv => (h a).con ha v hv, fun ⟨a, ha⟩ k => ⟨a, (h a).move ha k⟩⟩

theorem Mov.forall₂ {A B : Type} {φ : (Cell → ZMod p) → Ctx p → A → B → Prop} (as : List A) (h : ∀ a, ∃ avs, ∀ b, MovA avs fun w s => φ w s a b) :
    ∃ avs, ∀ bs, MovA avs (fun w s => as.Forall₂ (φ w s) bs) := by
  induction as with
  | nil => 
    refine ⟨[], fun bs => ⟨fun _ v hv => absurd hv List.not_mem_nil, ?_⟩⟩
    rintro w s w' s' (_ | _) _
    exact .nil
  | cons a as ih =>
    obtain ⟨u, hu⟩ := h a
    obtain ⟨v, hv⟩ := ih
    refine ⟨u ++ v, fun bs => ⟨?_, ?_⟩⟩
    · rintro w s (_ | ⟨h1, h2⟩) x hx
      rcases List.mem_append.1 hx with hx | hx
      · exact (hu _).con h1 x hx
      · exact (hv _).con h2 x hx
    · rintro w s w' s' (_ | ⟨h1, h2⟩) k
      exact .cons ((hu _).move h1 fun v hv => k v (by simp [hv])) ((hv _).move h2 fun v hv => k v (by simp [hv]))

theorem Mov.avsCon (as : List (AV p)) : ∃ avs, ∀ xs, MovA avs (fun w s => AvsCon w s as xs) :=
  Mov.forall₂ as fun a => ⟨[a], fun x => ⟨fun h u hu => by rw [List.mem_singleton.1 hu]; exact ⟨x, h⟩, fun h k => k a (by simp) x h⟩⟩

/-- A fact established in the context `s'`, now a thread of the pool, holds in all contexts. -/
theorem transfer {ext : Cell → ZMod p} {S S' : Pool p} (hid : PIds S) (e : PLe S S') {s' : Ctx p} (ht : s'.typeId = S'.typeId)
    (hs : S'.threads[s'.ctxId]? = some s') {φ : (Cell → ZMod p) → Ctx p → Prop} (hm : Mov φ) (h : ∀ w, Hon ext S w → φ w s') :
    PHolds ext S' φ := by
  classical
  obtain ⟨avs, hm⟩ := hm
  intro w hw s2 m2
  have hw0 := hw.mono e
  refine hm.move (h w hw0) fun v hv x hx => ?_
  obtain ⟨hval, c, hc, hvalid, hhw⟩ := id hx
  by_cases ho : Own s' c
  · by_cases ho2 : Own s2 c
    · have e1 : s2.ctxId = s'.ctxId := ho2.2.symm.trans ho.2
      exact hx.mono (m2.ext s' (by rw [e1]; exact hs))
    · refine ⟨hval, c, hc, fun h => absurd h ho2, ?_⟩
      have hwc := hw.thr s' (List.mem_of_getElem? hs) c.offset (hvalid ho)
      have : s'.cellAt c.offset = c := by
        cases c
        simp only [Ctx.cellAt, ← ho.1, ← ho.2]
      rw [this] at hwc
      rw [H2.hw, if_pos ho] at hhw
      rw [H2.hw, if_neg ho2, hwc, hhw]
  · rw [H2.hw, if_neg ho] at hhw
    by_cases ho2 : Own s2 c
    · have hct : c.typeId = S.typeId := by rw [ho2.1, m2.typeId, e.typeId]
      by_cases hex : ∃ t, S.threads[c.ctxId]? = some t ∧ c.offset < t.advice.length
      · obtain ⟨t, h1, h2⟩ := hex
        have ex : Ext t s2 := (m2.mono e).ext t (by rw [← ho2.2]; exact h1)
        have hwc := hw0.thr t (List.mem_of_getElem? h1) c.offset h2
        have : t.cellAt c.offset = c := by
          obtain ⟨k1, k2⟩ := hid _ _ h1
          cases c
          simp only [Ctx.cellAt, k1, k2] at *
          rw [hct]
        rw [this] at hwc
        refine ⟨hval, c, hc, fun _ => lt_of_lt_of_le h2 ex.length, ?_⟩
        rw [H2.hw, if_pos ho2, ex.valAt h2, ← hwc, hhw]
      · exfalso
        have hw1 : Hon ext S (Function.update w c (x + 1)) := by
          refine ⟨fun t ht j hj => ?_, fun c' hc' => ?_⟩
          · rw [Function.update_of_ne]
            · exact hw0.thr t ht j hj
            · rintro rfl
              obtain ⟨i, hi⟩ := List.getElem?_of_mem ht
              obtain ⟨k1, k2⟩ := hid _ _ hi
              exact hex ⟨t, by simpa only [Ctx.cellAt, k2] using hi, hj⟩
          · rw [Function.update_of_ne]
            · exact hw0.foreign c' hc'
            · rintro rfl
              exact hc' hct
        obtain ⟨x1, hval1, c1, hc1, -, hh1⟩ := hm.con (h _ hw1) v hv
        rw [hc] at hc1
        cases hc1
        rw [hval] at hval1
        cases hval1
        rw [H2.hw, if_neg ho, Function.update_self] at hh1
        simp at hh1
    · exact ⟨hval, c, hc, fun h => absurd h ho2, by rw [H2.hw, if_neg ho2, hhw]⟩

/-! ### The triple -/

/-- Completeness triple for routines on a pool. -/
def PCmp {α : Type} (tbl : ZMod p → Prop) (ext : Cell → ZMod p) (S : Pool p) (m : PM p α) (Q : α → Pool p → Prop) : Prop :=
  PGood tbl ext S → ∃ r S', m S = some (r, S') ∧ PGood tbl ext S' ∧ PLe S S' ∧ Q r S'

/-- The run of `m` from `S` does not panic, the honest assignment satisfies all constraints of all threads, and the result
satisfies `Q` in the honest assignment. -/
def PCompletes {α : Type} (tbl : ZMod p → Prop) (ext : Cell → ZMod p) (S : Pool p) (m : PM p α) (Q : (Cell → ZMod p) → α → Prop) : Prop :=
  ∃ r S', m S = some (r, S') ∧ PSat tbl S' (poolW ext S') ∧ PGood tbl ext S' ∧ Q (poolW ext S') r

section
variable {α β : Type} {tbl : ZMod p → Prop} {ext : Cell → ZMod p} {S : Pool p}

theorem PCmp.bind {m : PM p α} {f : α → PM p β} {Q : α → Pool p → Prop} {R : β → Pool p → Prop} (h : PCmp tbl ext S m Q)
    (k : ∀ a S1, PLe S S1 → Q a S1 → PCmp tbl ext S1 (f a) R) : PCmp tbl ext S (m >>= f) R := by
  intro hg
  obtain ⟨a, S1, h1, g1, e1, q1⟩ := h hg
  obtain ⟨r, S2, h2, g2, e2, q2⟩ := k a S1 e1 q1 g1
  exact ⟨r, S2, pbind_some.2 ⟨a, S1, h1, h2⟩, g2, e1.trans e2, q2⟩

theorem PCmp.weaken {m : PM p α} {Q R : α → Pool p → Prop} (h : PCmp tbl ext S m Q) (k : ∀ r S', Q r S' → R r S') :
    PCmp tbl ext S m R := by
  intro hg
  obtain ⟨a, S1, h1, g1, e1, q1⟩ := h hg
  exact ⟨a, S1, h1, g1, e1, k _ _ q1⟩

theorem PCmp.pure {a : α} {Q : α → Pool p → Prop} (h : Q a S) : PCmp tbl ext S (pure a : PM p α) Q :=
  fun hg => ⟨a, S, rfl, hg, .refl _, h⟩

theorem PCmp.assert {c : Bool} (hc : c = true) {f : Unit → PM p β} {R : β → Pool p → Prop} (k : PCmp tbl ext S (f ()) R) :
    PCmp tbl ext S (assertP c >>= f) R := by
  subst hc
  exact k

theorem PCmp.unwrap {o : Option α} {a : α} (ho : o = some a) {f : α → PM p β} {R : β → Pool p → Prop} (k : PCmp tbl ext S (f a) R) :
    PCmp tbl ext S (unwrapP o >>= f) R := by
  subst ho
  exact k

/-- One run serves all the ways of filling the missing cells. -/
theorem run_all {m : M p α} {Q : α → (Cell → ZMod p) → Ctx p → Prop} {s : Ctx p} (hid : PIds S)
    (hg : ∀ w, Hon ext S w → Good tbl w s) (h : ∀ w, Hon ext S w → Cmp tbl w s m (fun r s' => Q r w s')) :
    ∃ r s', m s = some (r, s') ∧ Ext s s' ∧ ∀ w, Hon ext S w → Good tbl w s' ∧ Q r w s' := by
  obtain ⟨r, s', h1, -, e1, -⟩ := h _ (hon_poolW hid) (hg _ (hon_poolW hid))
  refine ⟨r, s', h1, e1, fun w hw => ?_⟩
  obtain ⟨r2, s2, h2, g2, -, q2⟩ := h w hw (hg w hw)
  rw [h1] at h2
  cases h2
  exact ⟨g2, q2⟩

theorem onMain_cmp {m : M p α} {Q : α → (Cell → ZMod p) → Ctx p → Prop} (hm : ∀ r, Mov (Q r))
    (h : ∀ w, Hon ext S w → ∀ s, Member S s → Cmp tbl w s m (fun r s' => Q r w s')) :
    PCmp tbl ext S (onMain m) (fun r S' => PHolds ext S' (Q r)) := by
  intro hg
  unfold onMain
  cases hl : S.threads.getLast? with
  | none =>
    have hnil : S.threads = [] := List.getLast?_eq_none_iff.1 hl
    have hwgo := hg.wgo
    obtain ⟨r, s', h1, e1, h2⟩ := run_all (ext := ext) hg.ids
      (s := Ctx.new S.wgo S.phase S.typeId S.threads.length [] []) (fun w hw => by rw [hwgo]; exact good_new _ _ _)
      (fun w hw => h w hw _ (member_new le_rfl))
    have hle : PLe S { S with threads := [s'] } := ⟨rfl, fun i t ht => by rw [hnil] at ht; simp at ht⟩
    have hty : s'.typeId = S.typeId := e1.typeId
    have hct : s'.ctxId = 0 := by
      have : s'.ctxId = S.threads.length := e1.ctxId
      rw [this, hnil]; rfl
    refine ⟨r, { S with threads := [s'] }, by simp only [h1, Option.map_some], ⟨hwgo, ?_, ?_⟩, hle, ?_⟩
    · intro i t ht
      cases i with
      | zero => simp at ht; subst ht; exact ⟨hty, hct⟩
      | succ i => simp at ht
    · intro w hw t ht
      rw [List.mem_singleton.1 ht]
      exact (h2 w (hw.mono hle)).1
    · exact transfer hg.ids hle hty (by simp [hct]) (hm r) fun w hw => (h2 w hw).2
  | some s =>
    obtain ⟨l, hl⟩ := List.getLast?_eq_some_iff.1 hl
    have hs : s ∈ S.threads := by rw [hl]; simp
    obtain ⟨r, s', h1, e1, h2⟩ := run_all (ext := ext) hg.ids (fun w hw => hg.good w hw s hs)
      (fun w hw => h w hw _ (member_mem hg.ids hs))
    obtain ⟨hty, hct⟩ := hg.ids l.length s (by rw [hl]; simp)
    have hle : PLe S { S with threads := S.threads.dropLast ++ [s'] } := by
      refine ⟨rfl, fun i t ht => ?_⟩
      rw [hl] at ht
      simp only [hl, List.dropLast_concat]
      by_cases hi : i < l.length
      · rw [List.getElem?_append_left hi] at ht
        exact ⟨t, by rw [List.getElem?_append_left hi]; exact ht, .refl _⟩
      · obtain rfl : i = l.length := by
          have := (List.getElem?_eq_some_iff.1 ht).1
          simp at this; omega
        simp at ht
        subst ht
        exact ⟨s', by simp, e1⟩
    have hty' : s'.typeId = S.typeId := e1.typeId.trans hty
    have hct' : s'.ctxId = l.length := e1.ctxId.trans hct
    refine ⟨r, { S with threads := S.threads.dropLast ++ [s'] }, by simp only [h1, Option.map_some], ⟨hg.wgo, ?_, ?_⟩, hle, ?_⟩
    · intro i t ht
      simp only [hl, List.dropLast_concat] at ht
      by_cases hi : i < l.length
      · rw [List.getElem?_append_left hi] at ht
        exact hg.ids i t (by rw [hl, List.getElem?_append_left hi]; exact ht)
      · obtain rfl : i = l.length := by
          have := (List.getElem?_eq_some_iff.1 ht).1
          simp at this; omega
        simp at ht
        subst ht
        exact ⟨hty', hct'⟩
    · intro w hw t ht
      rcases List.mem_append.1 ht with ht | ht
      · exact hg.good w (hw.mono hle) t (List.dropLast_subset _ ht)
      · rw [List.mem_singleton.1 ht]
        exact (h2 w (hw.mono hle)).1
    · exact transfer hg.ids hle hty' (by simp [hl, hct']) (hm r) fun w hw => (h2 w hw).2

theorem parLoop_cmp {T R : Type} {f : T → M p R} {Q : T → R → (Cell → ZMod p) → Ctx p → Prop} (hid : PIds S) (hwgo : S.wgo = false)
    (input : List T) : ∀ {id : ℕ}, S.threads.length ≤ id →
    (∀ x ∈ input, ∀ w, Hon ext S w → ∀ s, Member S s → Cmp tbl w s (f x) (fun r s' => Q x r w s')) →
    ∃ rs ss, Phys.parLoop S.wgo S.phase S.typeId f id input = some (rs, ss) ∧ rs.length = ss.length ∧
      (∀ (i : ℕ) (s : Ctx p), ss[i]? = some s → s.typeId = S.typeId ∧ s.ctxId = id + i) ∧
      input.Forall₂ (fun x (rs : R × Ctx p) => ∀ w, Hon ext S w → Good tbl w rs.2 ∧ Q x rs.1 w rs.2) (rs.zip ss) := by
  induction input with
  | nil => intro id _ _; exact ⟨[], [], rfl, rfl, by simp, .nil⟩
  | cons x input ih =>
    intro id hle h
    obtain ⟨r, s', h1, e1, h2⟩ := run_all (ext := ext) hid (s := Ctx.new S.wgo S.phase S.typeId id [] [])
      (fun w hw => by rw [hwgo]; exact good_new _ _ _) (fun w hw => h x List.mem_cons_self w hw _ (member_new hle))
    obtain ⟨rs, ss, h3, h4, h5, h6⟩ := ih (id := id + 1) (by omega) fun y hy => h y (List.mem_cons_of_mem _ hy)
    refine ⟨r :: rs, s' :: ss, ?_, by simp [h4], ?_, .cons h2 h6⟩
    · simp only [Phys.parLoop, h1, h3, Option.bind_eq_bind, Option.bind_some, Option.pure_def]
    · intro i s hi
      cases i with
      | zero =>
        simp at hi
        subst hi
        exact ⟨e1.typeId, e1.ctxId⟩
      | succ i =>
        obtain ⟨k1, k2⟩ := h5 i s (by simpa using hi)
        exact ⟨k1, by omega⟩

theorem parallelize_cmp {T R : Type} {f : T → M p R} {Q : T → R → (Cell → ZMod p) → Ctx p → Prop} (input : List T)
    (hm : ∀ x r, Mov (Q x r))
    (h : ∀ x ∈ input, ∀ w, Hon ext S w → ∀ s, Member S s → Cmp tbl w s (f x) (fun r s' => Q x r w s')) :
    PCmp tbl ext S (parallelize input f) (fun rs S' => input.Forall₂ (fun x r => PHolds ext S' (Q x r)) rs) := by
  intro hg
  obtain ⟨rs, ss, h1, h2, h3, h4⟩ := parLoop_cmp hg.ids hg.wgo input le_rfl h
  have hle : PLe S { S with threads := S.threads ++ ss } := by
    refine ⟨rfl, fun i t ht => ⟨t, ?_, .refl _⟩⟩
    rw [List.getElem?_append_left (List.getElem?_eq_some_iff.1 ht).1]
    exact ht
  have hgood : ∀ w, Hon ext S w → ∀ s ∈ ss, Good tbl w s := by
    intro w hw s hs
    obtain ⟨i, hi, rfl⟩ := List.getElem_of_mem hs
    have := (List.forall₂_iff_get.1 h4)
    have hlen : input.length = (rs.zip ss).length := this.1
    rw [List.length_zip, h2, min_self] at hlen
    have k := this.2 i (by omega) (by rw [List.length_zip]; omega) w hw
    simpa using k.1
  refine ⟨rs, { S with threads := S.threads ++ ss }, ?_, ⟨hg.wgo, ?_, ?_⟩, hle, ?_⟩
  · simp only [parallelize, Phys.parallelizeCore, h1, Option.bind_eq_bind, Option.bind_some, Option.pure_def, Option.map_some]
  · intro i t ht
    dsimp only at ht
    by_cases hi : i < S.threads.length
    · rw [List.getElem?_append_left hi] at ht
      exact hg.ids i t ht
    · rw [List.getElem?_append_right (by omega)] at ht
      obtain ⟨k1, k2⟩ := h3 _ _ ht
      exact ⟨k1, by omega⟩
  · intro w hw t ht
    rcases List.mem_append.1 ht with ht | ht
    · exact hg.good w (hw.mono hle) t ht
    · exact hgood w (hw.mono hle) t ht
  · show input.Forall₂ _ rs
    rw [List.forall₂_iff_get]
    have := (List.forall₂_iff_get.1 h4)
    have hlen : input.length = (rs.zip ss).length := this.1
    rw [List.length_zip, h2, min_self] at hlen
    refine ⟨by omega, fun i hi hi' => ?_⟩
    have hk : ss[i]? = some (ss[i]'(by omega)) := List.getElem?_eq_getElem (by omega)
    obtain ⟨k1, k2⟩ := h3 i _ hk
    refine transfer (s' := ss[i]'(by omega)) hg.ids hle k1 ?_ (hm _ _) fun w hw => ?_
    · rw [k2]
      dsimp only
      rw [List.getElem?_append_right (by omega), Nat.add_sub_cancel_left]
      exact hk
    · have k := (this.2 i (by omega) (by rw [List.length_zip]; omega) w hw).2
      simpa using k

/-- The new pool of a `SinglePhaseCoreManager` without contexts. -/
theorem pgood_new (phase : ℕ) (t : String) : PGood tbl ext (⟨false, phase, t, []⟩ : Pool p) :=
  ⟨rfl, fun i t ht => by simp at ht, fun w _ t ht => by cases ht⟩

theorem PCmp.run {m : PM p α} {Q : α → Pool p → Prop} {R : (Cell → ZMod p) → α → Prop} (h : PCmp tbl ext S m Q)
    (hR : ∀ r S', PGood tbl ext S' → Q r S' → R (poolW ext S') r) (hg : PGood tbl ext S) : PCompletes tbl ext S m R := by
  obtain ⟨r, S', h1, g1, -, q1⟩ := h hg
  exact ⟨r, S', h1, g1.sat, g1, hR r S' g1 q1⟩

/-- The same, for a pool that already has a context. -/
theorem PCmp.run' {m : PM p α} {φ : α → (Cell → ZMod p) → Ctx p → Prop} {R : (Cell → ZMod p) → α → Prop}
    (h : PCmp tbl ext S m fun r S' => PHolds ext S' (φ r)) (hR : ∀ r w s, φ r w s → R (hw w s) r) (hS : S.threads ≠ []) (hg : PGood tbl ext S) :
    PCompletes tbl ext S m R := by
  obtain ⟨r, S', h1, g1, e1, q1⟩ := h hg
  obtain ⟨t, ht⟩ : ∃ t, S.threads[0]? = some t := by
    cases h : S.threads with
    | nil => exact absurd h hS
    | cons t ts => exact ⟨t, rfl⟩
  obtain ⟨t', ht', -⟩ := e1.thr 0 t ht
  have hm := List.mem_of_getElem? ht'
  refine ⟨r, S', h1, g1.sat, g1, ?_⟩
  have := hR r _ _ (q1 _ (hon_poolW g1.ids) t' (member_mem g1.ids hm))
  rwa [hw_poolW g1.ids hm] at this

end
end H2
