import Verif.Threads.Layout

/-! # Physical gates are virtual gates -/

set_option autoImplicit false
namespace H2.Phys
open H2
variable {p : ℕ}

/-- The virtual assignment read off a physical one through the virtual-to-physical map. -/
def vw (map : CellMap) (v : PCell → ZMod p) (c : Cell) : ZMod p :=
  match map c with
  | some x => v x
  | none => 0

/-- A thread whose enabled gates lie inside its column and do not overlap at distance 1 or 2 at the very top of
the column (the only overlap `assign_with_constraints` fails to detect when it breaks a column there). -/
structure WFThread (s : Ctx p) : Prop where
  inside : ∀ i, s.selector[i]? = some true → i + 3 < s.advice.length
  top : ¬ (s.selector[0]? = some true ∧ s.selector[1]? = some true)

theorem itemsFrom_mem {s : Ctx p} {l : List (Assigned p × Bool)} {i : ℕ} {it : Item p} (h : it ∈ itemsFrom s i l) :
    ∃ k, l[k]? = some (it.v, it.q) ∧ it = ⟨s, i + k, it.v, it.q⟩ := by
  obtain ⟨k, hk⟩ := List.mem_iff_getElem?.1 h
  rw [itemsFrom_getElem?, Option.map_eq_some_iff] at hk
  obtain ⟨e, he, rfl⟩ := hk
  exact ⟨k, he, rfl⟩

/-- Items that follow an item in the same thread. -/
theorem allItems_block (ts : List (Ctx p)) : ∀ (k : ℕ) (it : Item p), (allItems ts)[k]? = some it →
    it.s ∈ ts ∧ it.s.advice[it.i]? = some it.v ∧ it.s.selector[it.i]? = some it.q ∧
    ∀ j a q, it.s.advice[it.i + j]? = some a → it.s.selector[it.i + j]? = some q →
      (allItems ts)[k + j]? = some ⟨it.s, it.i + j, a, q⟩ := by
  induction ts with
  | nil => intro k it h; simp [allItems] at h
  | cons s t ih =>
    intro k it h
    have e : allItems (s :: t) = threadItems s ++ allItems t := by simp [allItems]
    rw [e] at h ⊢
    have hlen : (threadItems s).length = (s.advice.zip s.selector).length := itemsFrom_length _ _ _
    rcases Nat.lt_or_ge k (threadItems s).length with hk | hk
    · rw [List.getElem?_append_left hk, threadItems, itemsFrom_getElem?, Option.map_eq_some_iff] at h
      obtain ⟨x, hx, rfl⟩ := h
      rw [List.getElem?_zip_eq_some] at hx
      simp only [Nat.zero_add]
      refine ⟨List.mem_cons_self, hx.1, hx.2, ?_⟩
      intro j a q ha hq
      have hz : (s.advice.zip s.selector)[k + j]? = some (a, q) := List.getElem?_zip_eq_some.2 ⟨ha, hq⟩
      have hlt : k + j < (threadItems s).length := by
        rw [hlen]; exact (List.getElem?_eq_some_iff.1 hz).1
      rw [List.getElem?_append_left hlt, threadItems, itemsFrom_getElem?, hz]
      simp
    · rw [List.getElem?_append_right hk] at h
      obtain ⟨h1, h2, h3, h4⟩ := ih _ _ h
      refine ⟨List.mem_cons_of_mem _ h1, h2, h3, ?_⟩
      intro j a q ha hq
      rw [List.getElem?_append_right (by omega), show k + j - (threadItems s).length =
        k - (threadItems s).length + j by omega]
      exact h4 j a q ha hq

theorem allItems_exists (ts : List (Ctx p)) {s : Ctx p} (hs : s ∈ ts) {i : ℕ} {a : Assigned p} {q : Bool}
    (ha : s.advice[i]? = some a) (hq : s.selector[i]? = some q) : ∃ k : ℕ, (allItems ts)[k]? = some (⟨s, i, a, q⟩ : Item p) := by
  apply List.mem_iff_getElem?.1
  unfold allItems
  refine List.mem_flatMap.2 ⟨s, hs, ?_⟩
  refine List.mem_iff_getElem?.2 ⟨i, ?_⟩
  rw [threadItems, itemsFrom_getElem?, (List.getElem?_zip_eq_some (z := (a, q))).2 ⟨ha, hq⟩]
  simp

/-- The four cells of an enabled gate: the first one ends where the selector is switched on and the following three
are placed right below. -/
theorem gate_block {mx ncols : ℕ} {ts : List (Ctx p)} {st st' : LState p} (hmx : 4 ≤ mx)
    (hL : Laid mx ncols st (allItems ts) st') (hlen : ∀ s ∈ ts, s.advice ≠ [] → s.selector.length = s.advice.length)
    (hwf : ∀ s ∈ ts, WFThread s) {a : Place p} (ha : a ∈ places mx (allItems ts) (st.gate, st.row))
    (hq : a.q = true) :
    ∃ b ∈ places mx (allItems ts) (st.gate, st.row), ∃ c ∈ places mx (allItems ts) (st.gate, st.row),
    ∃ d ∈ places mx (allItems ts) (st.gate, st.row),
      b.cell = a.s.cellAt (a.i + 1) ∧ c.cell = a.s.cellAt (a.i + 2) ∧ d.cell = a.s.cellAt (a.i + 3) ∧
      b.before = (a.after.1, a.after.2 + 1) ∧ c.before = (a.after.1, a.after.2 + 2) ∧
      d.before = (a.after.1, a.after.2 + 3) := by
  obtain ⟨k, hk⟩ := List.mem_iff_getElem?.1 ha
  have hk' := hk
  rw [places_getElem?, Option.map_eq_some_iff] at hk'
  obtain ⟨it, hit, hae⟩ := hk'
  have hai : a.toItem = it := by rw [← hae]
  obtain ⟨hs, hv, hsel, hblk⟩ := allItems_block ts k it hit
  have hq' : it.q = true := by rw [← hai]; exact hq
  have hin := (hwf _ hs).inside it.i (by rw [hsel, hq'])
  have hne : it.s.advice ≠ [] := by intro e; rw [e] at hin; simp at hin
  have hl := hlen _ hs hne
  have get : ∀ j, j ≤ 3 → ∃ x ∈ places mx (allItems ts) (st.gate, st.row),
      (places mx (allItems ts) (st.gate, st.row))[k + j]? = some x ∧ x.s = it.s ∧ x.i = it.i + j ∧
      it.s.selector[it.i + j]? = some x.q := by
    intro j hj
    have h1 : it.i + j < it.s.advice.length := by omega
    have h2 : it.i + j < it.s.selector.length := by omega
    have := hblk j _ _ (List.getElem?_eq_getElem h1) (List.getElem?_eq_getElem h2)
    have hp := places_getElem? mx (allItems ts) (st.gate, st.row) (k + j)
    rw [this, Option.map_some] at hp
    exact ⟨_, List.mem_of_getElem? hp, hp, rfl, rfl, List.getElem?_eq_getElem h2⟩
  obtain ⟨b, hb, hbk, hbs, hbi, hbq⟩ := get 1 (by omega)
  obtain ⟨c, hc, hck, hcs, hci, hcq⟩ := get 2 (by omega)
  obtain ⟨d, hd, hdk, hds, hdi, hdq⟩ := get 3 (by omega)
  have e1 : b.before = nextPos a.after := places_succ hk hbk
  have e2 : c.before = nextPos b.after := places_succ hbk hck
  have e3 : d.before = nextPos c.after := places_succ hck hdk
  have hrow := places_gate hmx ha hq
  have hselD : it.s.selector.getD it.i false = true := by
    rw [List.getD_eq_getElem?_getD, hsel, hq']; rfl
  -- no break at the second cell
  have nb : ¬ b.broken := by
    intro hbr
    have ho := (hL.ok b hb hbr).1
    have hbb := (broken_iff hb).1 hbr
    rw [e1] at hbb
    have hqb : b.q = true := by
      by_contra hqb
      simp [brk, nextPos, hqb] at hbb
      omega
    rw [hbs, hbi] at ho
    unfold overlapOk at ho
    split at ho
    · have hm : (1 : ℕ) ∈ List.range' 1 (4 - 2) := by decide
      have := List.all_eq_true.1 ho 1 hm
      rw [show it.i + 1 - 1 = it.i by omega, hselD] at this
      simp at this
    · next hcond =>
      have hi0 : it.i = 0 := by omega
      apply (hwf _ hs).top
      rw [hi0] at hsel hbq
      rw [hsel, hq']
      refine ⟨rfl, ?_⟩
      rw [show (1 : ℕ) = 0 + 1 from rfl, hbq, hqb]
  have nc : ¬ c.broken := by
    intro hbr
    have ho := (hL.ok c hc hbr).1
    rw [hcs, hci] at ho
    unfold overlapOk at ho
    split at ho
    · have hm : (2 : ℕ) ∈ List.range' 1 (4 - 2) := by decide
      have := List.all_eq_true.1 ho 2 hm
      rw [show it.i + 2 - 2 = it.i by omega, hselD] at this
      simp at this
    · omega
  have ab := after_of_not_broken hb nb
  have ac := after_of_not_broken hc nc
  refine ⟨b, hb, c, hc, d, hd, ?_, ?_, ?_, ?_, ?_, ?_⟩
  · rw [Item.cell, hbs, hbi, hai]
  · rw [Item.cell, hcs, hci, hai]
  · rw [Item.cell, hds, hdi, hai]
  · rw [e1]; rfl
  · rw [e2, ab, e1]; rfl
  · rw [e3, ac, e2, ab, e1]; rfl

theorem mem_sel_iff {mx : ℕ} {l : List (Item p)} {x : ℕ × ℕ} {y : ℕ × ℕ} :
    y ∈ (places mx l x).flatMap Place.sel ↔ ∃ a ∈ places mx l x, a.q = true ∧ a.after = y := by
  rw [List.mem_flatMap]
  refine exists_congr fun a => and_congr_right fun _ => ?_
  unfold Place.sel
  by_cases h : a.q <;> simp [h, eq_comm]

theorem mem_copies_iff {mx : ℕ} {l : List (Item p)} {x : ℕ × ℕ} {e : PCell × PCell} :
    e ∈ (places mx l x).flatMap Place.copies ↔ ∃ a ∈ places mx l x, a.broken ∧ e = (pc a.after, pc a.before) := by
  rw [List.mem_flatMap]
  refine exists_congr fun a => and_congr_right fun _ => ?_
  unfold Place.copies
  by_cases h : a.broken <;> simp [h]

theorem mem_writes_iff {mx : ℕ} {l : List (Item p)} {x : ℕ × ℕ} {e : PCell × Assigned p} :
    e ∈ (places mx l x).flatMap Place.writes ↔
      ∃ a ∈ places mx l x, e = (pc a.before, a.v) ∨ e = (pc a.after, a.v) := by
  rw [List.mem_flatMap]
  refine exists_congr fun a => and_congr_right fun _ => ?_
  unfold Place.writes
  by_cases h : a.broken
  · simp [h]
  · have e1 : a.after = a.before := by unfold Place.broken at h; exact not_not.1 h
    simp [h, e1]

/-- Soundness of the layout: physical gates and break-point copies force the virtual gates. -/
theorem layout_gates {mx ncols : ℕ} {ts : List (Ctx p)} {reg : Region p} {map : CellMap} {st : LState p} (hmx : 4 ≤ mx)
    (h : assignWithConstraints mx ncols ts reg map = some st) (hwf : ∀ s ∈ ts, WFThread s) (v : PCell → ZMod p)
    (hgate : ∀ g r, (g, r) ∈ st.reg.sel →
      v ⟨.advice g, r⟩ + v ⟨.advice g, r + 1⟩ * v ⟨.advice g, r + 2⟩ = v ⟨.advice g, r + 3⟩)
    (hcopy : ∀ e ∈ st.reg.copies, v e.1 = v e.2) (map' : CellMap) (hmap : ∀ c x, st.map c = some x → map' c = some x) :
    ∀ s ∈ ts, ∀ i, s.selector[i]? = some true → GateAt (vw map' v) s i := by
  obtain ⟨hL, hlen⟩ := awcThreads_laid ts h
  intro s hs i hi
  have hin := (hwf s hs).inside i hi
  obtain ⟨k, hk⟩ := allItems_exists ts hs (List.getElem?_eq_getElem (show i < s.advice.length by omega)) hi
  have hp := places_getElem? mx (allItems ts) (0, 0) k
  rw [hk, Option.map_some] at hp
  obtain ⟨a, hae⟩ : ∃ a : Place p, (places mx (allItems ts) (0, 0))[k]? = some a ∧ a.s = s ∧ a.i = i ∧ a.q = true :=
    ⟨_, hp, rfl, rfl, rfl⟩
  obtain ⟨hak, has, hai, haq⟩ := hae
  have ha := List.mem_of_getElem? hak
  obtain ⟨b, hb, c, hc, d, hd, cb, cc, cd, pb, pcc, pd⟩ := gate_block hmx hL hlen hwf ha haq
  rw [has, hai] at cb cc cd
  have read : ∀ y ∈ places mx (allItems ts) (0, 0), vw map' v y.cell = v (pc y.before) := by
    intro y hy
    unfold vw
    rw [hmap _ _ (hL.maps y hy)]
  have ca : a.cell = s.cellAt i := by rw [Item.cell, has, hai]
  have hav : v (pc a.before) = v (pc a.after) := by
    by_cases hbr : a.broken
    · have := hcopy (pc a.after, pc a.before) (by
        rw [hL.copies]
        exact List.mem_append_right _ (mem_copies_iff.2 ⟨a, ha, hbr, rfl⟩))
      exact this.symm
    · rw [after_of_not_broken ha hbr]
  have hg := hgate a.after.1 a.after.2 (by
    rw [hL.sel]
    exact List.mem_append_right _ (mem_sel_iff.2 ⟨a, ha, haq, rfl⟩))
  unfold GateAt
  rw [← ca, ← cb, ← cc, ← cd, read a ha, read b hb, read c hc, read d hd, hav, pb, pcc, pd]
  exact hg

/-! ## Copy constraint manager -/

theorem eqLoop_spec {map : CellMap} (l : List (Cell × Cell)) : ∀ {r : List (PCell × PCell)}, eqLoop map l = some r →
    (∀ e ∈ l, ∃ x y, map e.1 = some x ∧ map e.2 = some y ∧ (x, y) ∈ r) ∧
    (∀ z ∈ r, ∃ e ∈ l, map e.1 = some z.1 ∧ map e.2 = some z.2) := by
  induction l with
  | nil => intro r h; simp [eqLoop] at h; subst h; simp
  | cons a t ih =>
    intro r h
    obtain ⟨l0, r0⟩ := a
    simp only [eqLoop, Option.bind_eq_bind, Option.bind_eq_some_iff, Option.pure_def, Option.some.injEq] at h
    obtain ⟨x, hx, y, hy, rest, hr, rfl⟩ := h
    obtain ⟨i1, i2⟩ := ih hr
    refine ⟨?_, ?_⟩
    · intro e he
      rcases List.mem_cons.1 he with rfl | he
      · exact ⟨x, y, hx, hy, List.mem_cons_self⟩
      · obtain ⟨x', y', h1, h2, h3⟩ := i1 e he
        exact ⟨x', y', h1, h2, List.mem_cons_of_mem _ h3⟩
    · intro z hz
      rcases List.mem_cons.1 hz with rfl | hz
      · exact ⟨_, List.mem_cons_self, hx, hy⟩
      · obtain ⟨e, h1, h2⟩ := i2 z hz
        exact ⟨e, List.mem_cons_of_mem _ h1, h2⟩

theorem constEqLoop_spec {cmap : ConstMap p} {map : CellMap} (l : List (ZMod p × Cell)) :
    ∀ {r : List (PCell × PCell)}, constEqLoop cmap map l = some r →
    (∀ e ∈ l, ∃ x y, cmap e.1 = some x ∧ map e.2 = some y ∧ (x, y) ∈ r) ∧
    (∀ z ∈ r, ∃ e ∈ l, cmap e.1 = some z.1 ∧ map e.2 = some z.2) := by
  induction l with
  | nil => intro r h; simp [constEqLoop] at h; subst h; simp
  | cons a t ih =>
    intro r h
    obtain ⟨l0, r0⟩ := a
    simp only [constEqLoop, Option.bind_eq_bind, Option.bind_eq_some_iff, Option.pure_def, Option.some.injEq] at h
    obtain ⟨x, hx, y, hy, rest, hr, rfl⟩ := h
    obtain ⟨i1, i2⟩ := ih hr
    refine ⟨?_, ?_⟩
    · intro e he
      rcases List.mem_cons.1 he with rfl | he
      · exact ⟨x, y, hx, hy, List.mem_cons_self⟩
      · obtain ⟨x', y', h1, h2, h3⟩ := i1 e he
        exact ⟨x', y', h1, h2, List.mem_cons_of_mem _ h3⟩
    · intro z hz
      rcases List.mem_cons.1 hz with rfl | hz
      · exact ⟨_, List.mem_cons_self, hx, hy⟩
      · obtain ⟨e, h1, h2⟩ := i2 z hz
        exact ⟨e, List.mem_cons_of_mem _ h1, h2⟩

/-- Invariant of the constant assignment loop: the `k`-th new constant is at column `k % nfixed`, row `k / nfixed`. -/
structure CInv (nfixed usable : ℕ) (st : CState p) : Prop where
  pos : st.off * nfixed + st.col = st.fixed.length
  col : st.fixed.length ≠ 0 → st.col < nfixed
  col0 : st.col ≤ nfixed
  at' : ∀ k e, st.fixed[k]? = some e → e.1 = ⟨.fixed (k % nfixed), k / nfixed⟩ ∧ k / nfixed < usable ∧ 0 < nfixed
  nodup : (st.fixed.map Prod.snd).Nodup
  map : ∀ c x, st.map c = some x ↔ (x, c) ∈ st.fixed

theorem constStep_inv {nfixed usable : ℕ} {c : ZMod p} {st st' : CState p} (hi : CInv nfixed usable st)
    (h : constStep nfixed usable c st = some st') :
    CInv nfixed usable st' ∧ (∃ x, st'.map c = some x) ∧ (∀ e ∈ st.fixed, e ∈ st'.fixed) ∧
      (∀ e ∈ st'.fixed, e ∈ st.fixed ∨ e.2 = c) := by
  unfold constStep at h
  split at h
  · next x hx => simp at h; subst h; exact ⟨hi, ⟨x, hx⟩, fun e he => he, fun e he => .inl he⟩
  · next hx =>
    split at h
    · next hc =>
      obtain ⟨hcol, hoff⟩ := hc
      have hn : 0 < nfixed := by omega
      simp only [Option.some.injEq] at h
      subst h
      have hd : st.fixed.length / nfixed = st.off := by
        rw [← hi.pos, Nat.mul_comm, Nat.mul_add_div hn, Nat.div_eq_of_lt hcol]; rfl
      have hm : st.fixed.length % nfixed = st.col := by
        rw [← hi.pos, Nat.mul_comm, Nat.mul_add_mod, Nat.mod_eq_of_lt hcol]
      refine ⟨?_, ⟨⟨.fixed st.col, st.off⟩, by simp⟩, fun e he => List.mem_append_left _ he, ?_⟩
      · constructor
        · simp only [List.length_append, List.length_singleton]
          split
          · next hge =>
            have : st.col + 1 = nfixed := by omega
            simp only
            rw [Nat.add_mul, ← hi.pos]; omega
          · simp only; rw [← hi.pos]; omega
        · intro _
          simp only
          split
          · exact hn
          · simp only; omega
        · simp only
          split
          · simp
          · simp only; omega
        · intro k e he
          simp only at he
          rcases Nat.lt_or_ge k st.fixed.length with hk | hk
          · rw [List.getElem?_append_left hk] at he
            exact hi.at' k e he
          · rw [List.getElem?_append_right hk] at he
            obtain ⟨h0, rfl⟩ := List.getElem?_eq_some_iff.1 he
            simp only [List.length_singleton] at h0
            have : k = st.fixed.length := by omega
            subst this
            simp only [Nat.sub_self, List.getElem_cons_zero]
            rw [hd, hm]
            exact ⟨rfl, hoff, hn⟩
        · simp only [List.map_append, List.map_cons, List.map_nil]
          rw [List.nodup_append]
          refine ⟨hi.nodup, List.nodup_singleton _, ?_⟩
          intro a ha b hb
          simp only [List.mem_singleton] at hb
          subst hb
          rintro rfl
          obtain ⟨e, he, rfl⟩ := List.mem_map.1 ha
          have := (hi.map e.2 e.1).2 he
          rw [hx] at this
          exact absurd this (by simp)
        · intro c' x
          simp only [List.mem_append, List.mem_singleton, Prod.mk.injEq]
          split
          · next e =>
            subst e
            have : (x, c') ∉ st.fixed := by
              intro hh
              have := (hi.map c' x).2 hh
              rw [hx] at this
              exact absurd this (by simp)
            simp [this, eq_comm]
          · next e => rw [hi.map]; simp [e]
      · intro e he
        rcases List.mem_append.1 he with he | he
        · exact .inl he
        · simp at he; subst he; exact .inr rfl
    · exact absurd h (by simp)

theorem constLoop_inv {nfixed usable : ℕ} (l : List (ZMod p × Cell)) : ∀ {st st' : CState p}, CInv nfixed usable st →
    constLoop nfixed usable l st = some st' →
    CInv nfixed usable st' ∧ (∀ e ∈ l, ∃ x, st'.map e.1 = some x) ∧ (∀ e ∈ st.fixed, e ∈ st'.fixed) ∧
      (∀ e ∈ st'.fixed, e ∈ st.fixed ∨ e.2 ∈ l.map Prod.fst) := by
  induction l with
  | nil => intro st st' hi h; simp [constLoop] at h; subst h; exact ⟨hi, by simp, fun e he => he, fun e he => .inl he⟩
  | cons a t ih =>
    intro st st' hi h
    simp only [constLoop, Option.bind_eq_bind, Option.bind_eq_some_iff] at h
    obtain ⟨st1, h1, h2⟩ := h
    obtain ⟨i1, ⟨x, hx⟩, i3, i4⟩ := constStep_inv hi h1
    obtain ⟨j1, j2, j3, j4⟩ := ih i1 h2
    refine ⟨j1, ?_, fun e he => j3 _ (i3 _ he), ?_⟩
    · intro e he
      rcases List.mem_cons.1 he with rfl | he
      · exact ⟨x, (j1.map _ _).2 (j3 _ ((i1.map _ _).1 hx))⟩
      · exact j2 e he
    · intro e he
      rcases j4 e he with h5 | h5
      · rcases i4 e h5 with h6 | h6
        · exact .inl h6
        · exact .inr (by simp [h6])
      · exact .inr (by simp only [List.map_cons, List.mem_cons]; exact .inr h5)

theorem CInv.init (nfixed usable : ℕ) : CInv (p := p) nfixed usable ⟨0, 0, [], fun _ => none⟩ := by
  constructor <;> simp

theorem mem_sortEqs {l : List (Cell × Cell)} {e : Cell × Cell} : e ∈ sortEqs l ↔ e ∈ l :=
  List.mem_insertionSort _
theorem mem_sortConsts {l : List (ZMod p × Cell)} {e : ZMod p × Cell} : e ∈ sortConsts l ↔ e ∈ l :=
  List.mem_insertionSort _

/-- What the copy manager emits. -/
structure CopyOut (nfixed usable : ℕ) (eqs : List (Cell × Cell)) (consts : List (ZMod p × Cell)) (map : CellMap)
    (reg reg' : Region p) (fx : List (PCell × ZMod p)) (new : List (PCell × PCell)) : Prop where
  fixed : reg'.fixed = reg.fixed ++ fx
  copies : reg'.copies = reg.copies ++ new
  writes : reg'.writes = reg.writes
  sel : reg'.sel = reg.sel
  qlk : reg'.qlk = reg.qlk
  fxAt : ∀ k e, fx[k]? = some e → e.1 = ⟨.fixed (k % nfixed), k / nfixed⟩ ∧ k / nfixed < usable ∧ 0 < nfixed
  fxNodup : (fx.map Prod.snd).Nodup
  fxOnly : ∀ e ∈ fx, e.2 ∈ consts.map Prod.fst
  eq : ∀ e ∈ eqs, ∃ x y, map e.1 = some x ∧ map e.2 = some y ∧ (x, y) ∈ new
  const : ∀ e ∈ consts, ∃ x y, (x, e.1) ∈ fx ∧ map e.2 = some y ∧ (x, y) ∈ new
  only : ∀ z ∈ new, (∃ e ∈ eqs, map e.1 = some z.1 ∧ map e.2 = some z.2) ∨
    ∃ e ∈ consts, (z.1, e.1) ∈ fx ∧ map e.2 = some z.2

theorem copyAssignRaw_out {nfixed usable : ℕ} {eqs : List (Cell × Cell)} {consts : List (ZMod p × Cell)} {map : CellMap}
    {reg reg' : Region p} (h : copyAssignRaw nfixed usable eqs consts map reg = some reg') :
    ∃ fx new, CopyOut nfixed usable eqs consts map reg reg' fx new := by
  simp only [copyAssignRaw, Option.bind_eq_bind, Option.bind_eq_some_iff, Option.pure_def, Option.some.injEq] at h
  obtain ⟨cst, h1, c1, h2, c2, h3, rfl⟩ := h
  obtain ⟨i1, i2, i3, i4⟩ := constLoop_inv _ (CInv.init _ _) h1
  obtain ⟨e1, e2⟩ := eqLoop_spec _ h2
  obtain ⟨f1, f2⟩ := constEqLoop_spec _ h3
  refine ⟨cst.fixed, c1 ++ c2, ?_⟩
  constructor
  · rfl
  · simp
  · rfl
  · rfl
  · rfl
  · exact i1.at'
  · exact i1.nodup
  · intro e he
    rcases i4 e he with h | h
    · simp at h
    · obtain ⟨e', he', hh⟩ := List.mem_map.1 h
      exact List.mem_map.2 ⟨e', mem_sortConsts.1 he', hh⟩
  · intro e he
    obtain ⟨x, y, a, b, c⟩ := e1 e (mem_sortEqs.2 he)
    exact ⟨x, y, a, b, List.mem_append_left _ c⟩
  · intro e he
    obtain ⟨x, y, a, b, c⟩ := f1 e (mem_sortConsts.2 he)
    exact ⟨x, y, (i1.map _ _).1 a, b, List.mem_append_right _ c⟩
  · intro z hz
    rcases List.mem_append.1 hz with hz | hz
    · obtain ⟨e, h1, h2, h3⟩ := e2 z hz
      exact .inl ⟨e, mem_sortEqs.1 h1, h2, h3⟩
    · obtain ⟨e, h1, h2, h3⟩ := f2 z hz
      exact .inr ⟨e, mem_sortConsts.1 h1, (i1.map _ _).1 h2, h3⟩

/-! ## Lookups -/

/-- What copying one tuple to a row of a lookup set emits. -/
theorem constrainExternal_spec {a : AV p} {ext : PCell} {map map' : CellMap} {reg reg' : Region p}
    (h : constrainExternal a ext map reg = some (map', reg')) :
    ∃ c x, a.cell = some c ∧ map' c = some x ∧
      ((map c = some x ∧ map' = map ∧ reg' = { reg with copies := reg.copies ++ [(x, ext)] }) ∨
       (map c = none ∧ c.typeId = externalTypeId ∧ x = ext ∧ map' = map.insert c ext ∧ reg' = reg)) := by
  unfold constrainExternal at h
  split at h
  · exact absurd h (by simp)
  · next c hc =>
    split at h
    · next x hx =>
      simp at h
      obtain ⟨rfl, rfl⟩ := h
      exact ⟨c, x, hc, hx, .inl ⟨hx, rfl, rfl⟩⟩
    · next hn =>
      split at h
      · next ht =>
        simp at h
        obtain ⟨rfl, rfl⟩ := h
        exact ⟨c, ext, hc, by simp [CellMap.insert], .inr ⟨hn, ht, rfl, rfl, rfl⟩⟩
      · exact absurd h (by simp)

/-- Effect of copying the cells `L` (each with its target physical cell) to the lookup columns. -/
structure LkOut (usable : ℕ) (L : List (AV p × PCell)) (map map' : CellMap) (reg reg' : Region p) : Prop where
  mono : ∀ c x, map c = some x → map' c = some x
  new : ∀ c x, map' c = some x → map c = some x ∨ ∃ e ∈ L, e.1.cell = some c ∧ x = e.2
  writes : reg'.writes = reg.writes ++ L.map fun e => (e.2, e.1.value)
  sel : reg'.sel = reg.sel
  qlk : reg'.qlk = reg.qlk
  fixed : reg'.fixed = reg.fixed
  copiesMono : ∀ e ∈ reg.copies, e ∈ reg'.copies
  copiesOnly : ∀ z ∈ reg'.copies, z ∈ reg.copies ∨ ∃ e ∈ L, ∃ c, e.1.cell = some c ∧ map' c = some z.1 ∧ z.2 = e.2
  tied : ∀ e ∈ L, ∃ c x, e.1.cell = some c ∧ map' c = some x ∧ (x = e.2 ∨ (x, e.2) ∈ reg'.copies)
  row : ∀ e ∈ L, e.2.row < usable

theorem LkOut.nil {usable : ℕ} {map : CellMap} {reg : Region p} : LkOut usable [] map map reg reg := by
  constructor <;> simp

theorem LkOut.append {usable : ℕ} {L L' : List (AV p × PCell)} {m0 m1 m2 : CellMap} {r0 r1 r2 : Region p}
    (h : LkOut usable L m0 m1 r0 r1) (h' : LkOut usable L' m1 m2 r1 r2) : LkOut usable (L ++ L') m0 m2 r0 r2 := by
  constructor
  · exact fun c x hc => h'.mono _ _ (h.mono _ _ hc)
  · intro c x hc
    rcases h'.new c x hc with h1 | ⟨e, he, h1⟩
    · rcases h.new c x h1 with h2 | ⟨e, he, h2⟩
      · exact .inl h2
      · exact .inr ⟨e, List.mem_append_left _ he, h2⟩
    · exact .inr ⟨e, List.mem_append_right _ he, h1⟩
  · rw [h'.writes, h.writes]; simp
  · rw [h'.sel, h.sel]
  · rw [h'.qlk, h.qlk]
  · rw [h'.fixed, h.fixed]
  · exact fun e he => h'.copiesMono _ (h.copiesMono _ he)
  · intro z hz
    rcases h'.copiesOnly z hz with h1 | ⟨e, he, c, h1, h2, h3⟩
    · rcases h.copiesOnly z h1 with h2 | ⟨e, he, c, h2, h3, h4⟩
      · exact .inl h2
      · exact .inr ⟨e, List.mem_append_left _ he, c, h2, h'.mono _ _ h3, h4⟩
    · exact .inr ⟨e, List.mem_append_right _ he, c, h1, h2, h3⟩
  · intro e he
    rcases List.mem_append.1 he with he | he
    · obtain ⟨c, x, h1, h2, h3⟩ := h.tied e he
      refine ⟨c, x, h1, h'.mono _ _ h2, ?_⟩
      rcases h3 with h3 | h3
      · exact .inl h3
      · exact .inr (h'.copiesMono _ h3)
    · exact h'.tied e he
  · intro e he
    rcases List.mem_append.1 he with he | he
    · exact h.row e he
    · exact h'.row e he

/-- Targets of one tuple. -/
def lkRow (setIdx off : ℕ) : ℕ → List (AV p) → List (AV p × PCell)
  | _, [] => []
  | j, a :: as => (a, ⟨.lookup setIdx j, off⟩) :: lkRow setIdx off (j + 1) as

theorem lkCols_out {setIdx off usable : ℕ} (as : List (AV p)) : ∀ {j : ℕ} {map map' : CellMap} {reg reg' : Region p},
    lkCols setIdx off usable j as map reg = some (map', reg') →
    LkOut usable (lkRow setIdx off j as) map map' reg reg' := by
  induction as with
  | nil => intro j map map' reg reg' h; simp [lkCols] at h; obtain ⟨rfl, rfl⟩ := h; exact LkOut.nil
  | cons a t ih =>
    intro j map map' reg reg' h
    rw [lkCols] at h
    split at h
    · next ho =>
      simp only [Option.bind_eq_bind, Option.bind_eq_some_iff] at h
      obtain ⟨⟨m1, r1⟩, h1, h2⟩ := h
      have key : LkOut usable [(a, ⟨.lookup setIdx j, off⟩)] map m1 reg r1 := by
        obtain ⟨c, x, hc, hx, hcase⟩ := constrainExternal_spec h1
        rcases hcase with ⟨e1, rfl, rfl⟩ | ⟨e1, e2, rfl, rfl, rfl⟩
        · constructor
          · exact fun _ _ h => h
          · exact fun _ _ h => .inl h
          · simp
          · rfl
          · rfl
          · rfl
          · exact fun e he => List.mem_append_left _ he
          · intro z hz
            rcases List.mem_append.1 hz with hz | hz
            · exact .inl hz
            · simp at hz; subst hz
              exact .inr ⟨_, List.mem_singleton_self _, c, hc, e1, rfl⟩
          · intro e he
            simp at he; subst he
            exact ⟨c, x, hc, hx, .inr (by simp)⟩
          · intro e he
            simp at he; subst he; exact ho
        · constructor
          · intro c' x' h
            unfold CellMap.insert
            split
            · next e => subst e; rw [e1] at h; exact absurd h (by simp)
            · exact h
          · intro c' x' h
            unfold CellMap.insert at h
            split at h
            · next e => simp at h; subst e; subst h; exact .inr ⟨_, List.mem_singleton_self _, hc, rfl⟩
            · exact .inl h
          · simp
          · rfl
          · rfl
          · rfl
          · exact fun e he => he
          · exact fun z hz => .inl hz
          · intro e he
            simp at he; subst he
            exact ⟨c, _, hc, hx, .inl rfl⟩
          · intro e he
            simp at he; subst he; exact ho
      exact key.append (ih h2)
    · exact absurd h (by simp)

/-- Targets of all tuples: the `k`-th one goes to set `k % nsets`, row `k / nsets`. -/
def lkTargets (nsets : ℕ) : ℕ → List (List (AV p)) → List (AV p × PCell)
  | _, [] => []
  | k, as :: l => lkRow (k % nsets) (k / nsets) 0 as ++ lkTargets nsets (k + 1) l

theorem lkLoop_out {nsets usable : ℕ} (L : List (List (AV p))) : ∀ {col off k : ℕ} {map map' : CellMap}
    {reg reg' : Region p}, off * nsets + col = k → col ≤ nsets →
    lkLoop nsets usable L col off map reg = some (map', reg') →
    LkOut usable (lkTargets nsets k L) map map' reg reg' ∧ (L ≠ [] → 0 < nsets) := by
  induction L with
  | nil =>
    intro col off k map map' reg reg' _ _ h
    simp [lkLoop] at h; obtain ⟨rfl, rfl⟩ := h; exact ⟨LkOut.nil, by simp⟩
  | cons as t ih =>
    intro col off k map map' reg reg' hk hc h
    rw [lkLoop] at h
    by_cases hge : col ≥ nsets
    · simp only [hge, if_true] at h
      split at h
      · next h0 =>
        simp only [Option.bind_eq_bind, Option.bind_eq_some_iff] at h
        obtain ⟨⟨m1, r1⟩, h1, h2⟩ := h
        have e : (off + 1) * nsets = k := by rw [Nat.add_mul]; omega
        have o1 := lkCols_out as h1
        have o2 := (ih (k := k + 1) (by omega) (by omega) h2).1
        have hkd : k / nsets = off + 1 := by rw [← e, Nat.mul_div_cancel _ h0]
        have hkm : k % nsets = 0 := by rw [← e, Nat.mul_mod_left]
        refine ⟨?_, fun _ => h0⟩
        rw [lkTargets, hkd, hkm]
        exact o1.append o2
      · exact absurd h (by simp)
    · simp only [hge, if_false] at h
      split at h
      · next h0 =>
        simp only [Option.bind_eq_bind, Option.bind_eq_some_iff] at h
        obtain ⟨⟨m1, r1⟩, h1, h2⟩ := h
        have o1 := lkCols_out as h1
        have o2 := (ih (k := k + 1) (by omega) (by omega) h2).1
        have hn : 0 < nsets := by omega
        have hkd : k / nsets = off := by
          rw [← hk, Nat.mul_comm, Nat.mul_add_div hn, Nat.div_eq_of_lt h0]; rfl
        have hkm : k % nsets = col := by rw [← hk, Nat.mul_comm, Nat.mul_add_mod, Nat.mod_eq_of_lt h0]
        refine ⟨?_, fun _ => hn⟩
        rw [lkTargets, hkd, hkm]
        exact o1.append o2
      · exact absurd h (by simp)

theorem lkRow_mem {s o : ℕ} (as : List (AV p)) : ∀ {j i : ℕ} {a : AV p}, as[i]? = some a →
    (a, (⟨.lookup s (j + i), o⟩ : PCell)) ∈ lkRow s o j as := by
  induction as with
  | nil => intro j i a h; simp at h
  | cons b t ih =>
    intro j i a h
    rw [lkRow]
    cases i with
    | zero => simp at h; subst h; exact List.mem_cons_self
    | succ i =>
      simp only [List.getElem?_cons_succ] at h
      have := ih (j := j + 1) h
      rw [show j + 1 + i = j + (i + 1) by omega] at this
      exact List.mem_cons_of_mem _ this

theorem lkRow_mem' {s o : ℕ} (as : List (AV p)) : ∀ {j : ℕ} {e : AV p × PCell}, e ∈ lkRow s o j as →
    ∃ i, as[i]? = some e.1 ∧ e.2 = ⟨.lookup s (j + i), o⟩ := by
  induction as with
  | nil => intro j e h; simp [lkRow] at h
  | cons b t ih =>
    intro j e h
    rw [lkRow] at h
    rcases List.mem_cons.1 h with rfl | h
    · exact ⟨0, rfl, rfl⟩
    · obtain ⟨i, h1, h2⟩ := ih h
      exact ⟨i + 1, h1, by rw [h2, show j + 1 + i = j + (i + 1) by omega]⟩

theorem lkTargets_mem {n : ℕ} (L : List (List (AV p))) : ∀ {k0 k i : ℕ} {as : List (AV p)} {a : AV p},
    L[k]? = some as → as[i]? = some a →
    (a, (⟨.lookup ((k0 + k) % n) i, (k0 + k) / n⟩ : PCell)) ∈ lkTargets n k0 L := by
  induction L with
  | nil => intro k0 k i as a h; simp at h
  | cons b t ih =>
    intro k0 k i as a h h'
    rw [lkTargets]
    cases k with
    | zero =>
      simp at h; subst h
      have := lkRow_mem (s := k0 % n) (o := k0 / n) b (j := 0) h'
      rw [Nat.zero_add] at this
      exact List.mem_append_left _ this
    | succ k =>
      simp only [List.getElem?_cons_succ] at h
      have := ih (k0 := k0 + 1) h h'
      rw [show k0 + 1 + k = k0 + (k + 1) by omega] at this
      exact List.mem_append_right _ this

theorem lkTargets_mem' {n : ℕ} (L : List (List (AV p))) : ∀ {k0 : ℕ} {e : AV p × PCell}, e ∈ lkTargets n k0 L →
    ∃ k i as, L[k]? = some as ∧ as[i]? = some e.1 ∧ e.2 = ⟨.lookup ((k0 + k) % n) i, (k0 + k) / n⟩ := by
  induction L with
  | nil => intro k0 e h; simp [lkTargets] at h
  | cons b t ih =>
    intro k0 e h
    rw [lkTargets] at h
    rcases List.mem_append.1 h with h | h
    · obtain ⟨i, h1, h2⟩ := lkRow_mem' b h
      exact ⟨0, i, b, rfl, h1, by rw [h2, Nat.zero_add]; rfl⟩
    · obtain ⟨k, i, as, h1, h2, h3⟩ := ih h
      exact ⟨k + 1, i, as, h1, h2, by rw [h3, show k0 + 1 + k = k0 + (k + 1) by omega]⟩

/-- The single-column mode. -/
theorem qLookupLoop_spec {map : CellMap} (L : List (List (AV p))) : ∀ {reg reg' : Region p},
    qLookupLoop map L reg = some reg' →
    reg'.writes = reg.writes ∧ reg'.sel = reg.sel ∧ reg'.fixed = reg.fixed ∧ reg'.copies = reg.copies ∧
    (∀ r ∈ reg.qlk, r ∈ reg'.qlk) ∧
    (∀ r ∈ reg'.qlk, r ∈ reg.qlk ∨ ∃ as ∈ L, ∃ a c, as.head? = some a ∧ a.cell = some c ∧ map c = some ⟨.advice 0, r⟩) ∧
    (∀ as ∈ L, ∃ a c r, as.head? = some a ∧ a.cell = some c ∧ map c = some ⟨.advice 0, r⟩ ∧ r ∈ reg'.qlk) := by
  induction L with
  | nil =>
    intro reg reg' h; simp [qLookupLoop] at h; subst h
    exact ⟨rfl, rfl, rfl, rfl, fun _ h => h, fun _ h => .inl h, by simp⟩
  | cons as t ih =>
    intro reg reg' h
    simp only [qLookupLoop, Option.bind_eq_bind, Option.bind_eq_some_iff] at h
    obtain ⟨a, ha, c, hc, x, hx, h⟩ := h
    split at h
    · next hcol =>
      obtain ⟨i1, i2, i3, i4, i5, i6, i7⟩ := ih h
      have hx' : map c = some ⟨.advice 0, x.row⟩ := by rw [hx]; cases x; simp at hcol; simp [hcol]
      refine ⟨i1, i2, i3, i4, fun r hr => i5 r (List.mem_append_left _ hr), ?_, ?_⟩
      · intro r hr
        rcases i6 r hr with h1 | ⟨as', h1, a', c', h2⟩
        · rcases List.mem_append.1 h1 with h1 | h1
          · exact .inl h1
          · simp at h1; subst h1
            exact .inr ⟨as, List.mem_cons_self, a, c, ha, hc, hx'⟩
        · exact .inr ⟨as', List.mem_cons_of_mem _ h1, a', c', h2⟩
      · intro as' has'
        rcases List.mem_cons.1 has' with rfl | has'
        · exact ⟨a, c, x.row, ha, hc, hx', i5 _ (by simp)⟩
        · exact i7 as' has'
    · exact absurd h (by simp)

/-! ## Instances -/

theorem instLoop_spec {k : ℕ} {map : CellMap} (l : List (AV p)) : ∀ {i0 : ℕ} {r : List (PCell × PCell)},
    instLoop k map i0 l = some r →
    (∀ i a, l[i]? = some a → ∃ c x, a.cell = some c ∧ map c = some x ∧ (x, (⟨.inst k, i0 + i⟩ : PCell)) ∈ r) ∧
    (∀ z ∈ r, ∃ i a c, l[i]? = some a ∧ a.cell = some c ∧ map c = some z.1 ∧ z.2 = ⟨.inst k, i0 + i⟩) := by
  induction l with
  | nil => intro i0 r h; simp [instLoop] at h; subst h; simp
  | cons a t ih =>
    intro i0 r h
    simp only [instLoop, Option.bind_eq_bind, Option.bind_eq_some_iff, Option.pure_def, Option.some.injEq] at h
    obtain ⟨c, hc, x, hx, rest, hr, rfl⟩ := h
    obtain ⟨j1, j2⟩ := ih hr
    refine ⟨?_, ?_⟩
    · intro i b hb
      cases i with
      | zero => simp at hb; subst hb; exact ⟨c, x, hc, hx, List.mem_cons_self⟩
      | succ i =>
        simp only [List.getElem?_cons_succ] at hb
        obtain ⟨c', x', h1, h2, h3⟩ := j1 i b hb
        rw [show i0 + 1 + i = i0 + (i + 1) by omega] at h3
        exact ⟨c', x', h1, h2, List.mem_cons_of_mem _ h3⟩
    · intro z hz
      rcases List.mem_cons.1 hz with rfl | hz
      · exact ⟨0, a, c, rfl, hc, hx, rfl⟩
      · obtain ⟨i, b, c', h1, h2, h3, h4⟩ := j2 z hz
        exact ⟨i + 1, b, c', h1, h2, h3, by rw [h4, show i0 + 1 + i = i0 + (i + 1) by omega]⟩

theorem instAll_spec {map : CellMap} (L : List (List (AV p))) : ∀ {k0 : ℕ} {r : List (PCell × PCell)},
    instAll map k0 L = some r →
    (∀ (k : ℕ) l, L[k]? = some l → ∀ i a, l[i]? = some a →
      ∃ c x, a.cell = some c ∧ map c = some x ∧ (x, (⟨.inst (k0 + k), i⟩ : PCell)) ∈ r) ∧
    (∀ z ∈ r, ∃ k l i a c, L[k]? = some l ∧ l[i]? = some a ∧ a.cell = some c ∧ map c = some z.1 ∧
      z.2 = ⟨.inst (k0 + k), i⟩) := by
  induction L with
  | nil => intro k0 r h; simp [instAll] at h; subst h; simp
  | cons l t ih =>
    intro k0 r h
    simp only [instAll, Option.bind_eq_bind, Option.bind_eq_some_iff, Option.pure_def, Option.some.injEq] at h
    obtain ⟨r1, h1, r2, h2, rfl⟩ := h
    obtain ⟨j1, j2⟩ := ih h2
    obtain ⟨m1, m2⟩ := instLoop_spec l h1
    refine ⟨?_, ?_⟩
    · intro k l' hl i a ha
      cases k with
      | zero =>
        simp at hl; subst hl
        obtain ⟨c, x, e1, e2, e3⟩ := m1 i a ha
        rw [Nat.zero_add] at e3
        exact ⟨c, x, e1, e2, List.mem_append_left _ e3⟩
      | succ k =>
        simp only [List.getElem?_cons_succ] at hl
        obtain ⟨c, x, e1, e2, e3⟩ := j1 k l' hl i a ha
        rw [show k0 + 1 + k = k0 + (k + 1) by omega] at e3
        exact ⟨c, x, e1, e2, List.mem_append_right _ e3⟩
    · intro z hz
      rcases List.mem_append.1 hz with hz | hz
      · obtain ⟨i, a, c, e1, e2, e3, e4⟩ := m2 z hz
        exact ⟨0, l, i, a, c, rfl, e1, e2, e3, by rw [e4, Nat.zero_add]; rfl⟩
      · obtain ⟨k, l', i, a, c, e0, e1, e2, e3, e4⟩ := j2 z hz
        exact ⟨k + 1, l', i, a, c, e0, e1, e2, e3, by rw [e4, show k0 + 1 + k = k0 + (k + 1) by omega]⟩

end H2.Phys
