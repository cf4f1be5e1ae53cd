import Verif.Threads.Shape
import Mathlib.Data.Finset.Card
import Mathlib.Data.Finset.Dedup

/-! # When does `synthesize` succeed? -/

set_option autoImplicit false
namespace H2.Phys
open H2
variable {p : ℕ}

/-! ## Constants -/

theorem constStep_cond {nfixed usable : ℕ} {st : CState p} (hi : CInv nfixed usable st) :
    (st.col < nfixed ∧ st.off < usable) ↔ st.fixed.length < nfixed * usable := by
  have hp := hi.pos
  constructor
  · rintro ⟨h1, h2⟩
    calc st.fixed.length = st.off * nfixed + st.col := hp.symm
      _ < (st.off + 1) * nfixed := by rw [Nat.add_mul]; omega
      _ ≤ usable * nfixed := Nat.mul_le_mul_right _ h2
      _ = nfixed * usable := Nat.mul_comm _ _
  · intro h
    have hn : 0 < nfixed := by
      rcases Nat.eq_zero_or_pos nfixed with h0 | h0
      · rw [h0, Nat.zero_mul] at h; omega
      · exact h0
    refine ⟨?_, ?_⟩
    · by_cases h0 : st.fixed.length = 0
      · omega
      · exact hi.col h0
    · by_contra hge
      have : usable * nfixed ≤ st.off * nfixed := Nat.mul_le_mul_right _ (not_lt.1 hge)
      rw [Nat.mul_comm] at h
      omega

theorem constLoop_isSome {nfixed usable : ℕ} (l : List (ZMod p × Cell)) : ∀ {st : CState p}, CInv nfixed usable st →
    st.fixed.length ≤ nfixed * usable →
    ((constLoop nfixed usable l st).isSome ↔
      ((st.fixed.map Prod.snd) ++ l.map Prod.fst).toFinset.card ≤ nfixed * usable) := by
  induction l with
  | nil =>
    intro st hi hl
    simp only [constLoop, Option.isSome_some, List.map_nil, List.append_nil, true_iff]
    rw [List.toFinset_card_of_nodup hi.nodup]; simpa using hl
  | cons a t ih =>
    intro st hi hl
    cases hm : st.map a.1 with
    | some x =>
      have hs : constStep nfixed usable a.1 st = some st := by simp [constStep, hm]
      rw [constLoop, hs]
      simp only [Option.bind_eq_bind, Option.bind_some]
      rw [ih hi hl]
      have hmem : a.1 ∈ st.fixed.map Prod.snd := List.mem_map.2 ⟨_, (hi.map _ _).1 hm, rfl⟩
      have : ((st.fixed.map Prod.snd) ++ t.map Prod.fst).toFinset =
          ((st.fixed.map Prod.snd) ++ (a :: t).map Prod.fst).toFinset := by
        ext c
        simp only [List.mem_toFinset, List.mem_append, List.map_cons, List.mem_cons]
        constructor
        · rintro (h | h) <;> simp [h]
        · rintro (h | rfl | h)
          · exact .inl h
          · exact .inl hmem
          · exact .inr h
      rw [this]
    | none =>
      by_cases hc : st.col < nfixed ∧ st.off < usable
      · obtain ⟨st1, hs⟩ : ∃ st1, constStep nfixed usable a.1 st = some st1 := by
          unfold constStep
          rw [hm]
          simp only [hc, and_self, if_true]
          exact ⟨_, rfl⟩
        have hfx : st1.fixed = st.fixed ++ [(⟨.fixed st.col, st.off⟩, a.1)] := by
          unfold constStep at hs
          rw [hm] at hs
          simp only [hc, and_self, if_true, Option.some.injEq] at hs
          rw [← hs]
        rw [constLoop, hs]
        simp only [Option.bind_eq_bind, Option.bind_some]
        have hlt := (constStep_cond hi).1 hc
        rw [ih (constStep_inv hi hs).1 (by rw [hfx]; simp; omega), hfx]
        simp
      · have hs : constStep nfixed usable a.1 st = none := by
          unfold constStep; rw [hm]; simp only [hc, if_false]
        rw [constLoop, hs]
        simp only [Option.bind_eq_bind, Option.bind_none, Option.isSome_none, Bool.false_eq_true, false_iff, not_le]
        have hge := mt (constStep_cond hi).2 hc
        have hnm : a.1 ∉ st.fixed.map Prod.snd := by
          intro h
          obtain ⟨e, he, h2⟩ := List.mem_map.1 h
          have := (hi.map e.2 e.1).2 he
          rw [h2, hm] at this
          exact absurd this (by simp)
        have hsub : (a.1 :: st.fixed.map Prod.snd).toFinset ⊆
            ((st.fixed.map Prod.snd) ++ (a :: t).map Prod.fst).toFinset := by
          intro c hc'
          simp only [List.mem_toFinset, List.mem_append, List.map_cons, List.mem_cons] at hc' ⊢
          tauto
        have hcard := Finset.card_le_card hsub
        rw [List.toFinset_card_of_nodup (List.nodup_cons.2 ⟨hnm, hi.nodup⟩)] at hcard
        simp only [List.length_cons, List.length_map] at hcard
        omega

theorem eqLoop_isSome {map : CellMap} (l : List (Cell × Cell)) :
    (eqLoop map l).isSome ↔ ∀ e ∈ l, (map e.1).isSome ∧ (map e.2).isSome := by
  induction l with
  | nil => simp [eqLoop]
  | cons a t ih =>
    obtain ⟨x, y⟩ := a
    rw [eqLoop]
    cases hx : map x with
    | none => simp [hx]
    | some px =>
      cases hy : map y with
      | none => simp [hx, hy]
      | some py =>
        cases hr : eqLoop map t with
        | none => rw [hr] at ih; simp [hx, hy] at ih ⊢; exact ih
        | some r => rw [hr] at ih; simp [hx, hy] at ih ⊢; exact ih

theorem constEqLoop_isSome {cmap : ConstMap p} {map : CellMap} (l : List (ZMod p × Cell)) :
    (constEqLoop cmap map l).isSome ↔ ∀ e ∈ l, (cmap e.1).isSome ∧ (map e.2).isSome := by
  induction l with
  | nil => simp [constEqLoop]
  | cons a t ih =>
    obtain ⟨x, y⟩ := a
    rw [constEqLoop]
    cases hx : cmap x with
    | none => simp [hx]
    | some px =>
      cases hy : map y with
      | none => simp [hx, hy]
      | some py =>
        cases hr : constEqLoop cmap map t with
        | none => rw [hr] at ih; simp [hx, hy] at ih ⊢; exact ih
        | some r => rw [hr] at ih; simp [hx, hy] at ih ⊢; exact ih

theorem copyAssignRaw_isSome {nfixed usable : ℕ} {eqs : List (Cell × Cell)} {consts : List (ZMod p × Cell)}
    {map : CellMap} {reg : Region p} :
    (copyAssignRaw nfixed usable eqs consts map reg).isSome ↔
      (consts.map Prod.fst).toFinset.card ≤ nfixed * usable ∧
      (∀ e ∈ eqs, (map e.1).isSome ∧ (map e.2).isSome) ∧ ∀ e ∈ consts, (map e.2).isSome := by
  have h1 := constLoop_isSome (sortConsts consts) (CInv.init nfixed usable) (by simp)
  have hset : ((sortConsts consts).map Prod.fst).toFinset = (consts.map Prod.fst).toFinset := by
    ext c
    simp only [List.mem_toFinset, List.mem_map]
    constructor <;> rintro ⟨e, he, rfl⟩
    · exact ⟨e, mem_sortConsts.1 he, rfl⟩
    · exact ⟨e, mem_sortConsts.2 he, rfl⟩
  simp only [List.map_nil, List.nil_append] at h1
  rw [hset] at h1
  have h2 := eqLoop_isSome (map := map) (sortEqs eqs)
  simp only [copyAssignRaw]
  cases hc : constLoop nfixed usable (sortConsts consts) ⟨0, 0, [], fun _ => none⟩ with
  | none =>
    rw [hc] at h1
    simp at h1 ⊢
    intro h; omega
  | some cst =>
    rw [hc] at h1
    obtain ⟨-, i2, -, -⟩ := constLoop_inv _ (CInv.init _ _) hc
    have h1' : (consts.map Prod.fst).toFinset.card ≤ nfixed * usable := h1.1 rfl
    have h3 := constEqLoop_isSome (cmap := cst.map) (map := map) (sortConsts consts)
    cases he : eqLoop map (sortEqs eqs) with
    | none =>
      rw [he] at h2
      simp only [Option.bind_eq_bind, Option.bind_some, Option.bind_none, Option.isSome_none, Bool.false_eq_true,
        false_iff] at h2 ⊢
      rintro ⟨-, h, -⟩
      exact h2 fun e he => h e (mem_sortEqs.1 he)
    | some c1 =>
      rw [he] at h2
      have h2' := h2.1 rfl
      cases hq : constEqLoop cst.map map (sortConsts consts) with
      | none =>
        rw [hq] at h3
        simp only [hq, Option.bind_eq_bind, Option.bind_some, Option.bind_none, Option.isSome_none, Bool.false_eq_true,
          false_iff] at h3 ⊢
        rintro ⟨-, -, h⟩
        refine h3 fun e he => ⟨?_, h e (mem_sortConsts.1 he)⟩
        obtain ⟨x, hx⟩ := i2 e he
        rw [hx]; rfl
      | some c2 =>
        rw [hq] at h3
        have h3' := h3.1 rfl
        simp only [hq, Option.bind_eq_bind, Option.bind_some, Option.pure_def, Option.isSome_some, true_iff]
        exact ⟨h1', fun e he => h2' e (mem_sortEqs.2 he), fun e he => (h3' e (mem_sortConsts.2 he)).2⟩

/-! ## Advice columns -/

/-- Enabled gates overlap at most in their last cell. -/
def NonOverlap (s : Ctx p) : Prop :=
  ∀ i, s.selector[i]? = some true → s.selector[i + 1]? ≠ some true ∧ s.selector[i + 2]? ≠ some true

/-- Row budget: an enabled selector one or two rows above leaves room for its gate. -/
def Budget (mx : ℕ) (s : Ctx p) (i row : ℕ) : Prop :=
  ∀ d, (d = 1 ∨ d = 2) → d ≤ i → s.selector[i - d]? = some true → row + 4 ≤ mx + d

theorem awcCell_succeeds {mx ncols : ℕ} {s : Ctx p} (hmx : 4 ≤ mx) (hno : NonOverlap s) {i n total : ℕ} {v : Assigned p}
    {q : Bool} {st : LState p} (hq : s.selector[i]? = some q) (hb : Budget mx s i st.row)
    (hpot : st.gate * (mx - 3) + st.row ≤ n) (hn : n < total) (htot : (total - 1) / (mx - 3) < ncols)
    (hmap : st.map (s.cellAt i) = none) :
    ∃ st', awcCell 4 mx ncols s i v q st = some st' ∧ Budget mx s (i + 1) st'.row ∧
      st'.gate * (mx - 3) + st'.row ≤ n + 1 ∧ ∀ c, c ≠ s.cellAt i → st'.map c = st.map c := by
  have hins : ∀ x c, c ≠ s.cellAt i → (st.map.insert (s.cellAt i) x) c = st.map c := by
    intro x c hc; simp [CellMap.insert, hc]
  unfold awcCell
  simp only
  rw [if_neg (by simp [clash, hmap]), if_neg (by omega)]
  by_cases hbr : brk 4 mx q st.row = true
  · rw [if_pos hbr]
    have hrow : mx - 3 ≤ st.row := by
      unfold brk at hbr
      simp only [Bool.or_eq_true, Bool.and_eq_true, decide_eq_true_eq] at hbr
      omega
    -- no selector at `i - 1`, `i - 2`
    have hsel : ∀ d, (d = 1 ∨ d = 2) → d ≤ i → s.selector[i - d]? ≠ some true := by
      intro d hd hdi hs
      have hbd := hb d hd hdi hs
      unfold brk at hbr
      simp only [Bool.or_eq_true, Bool.and_eq_true, decide_eq_true_eq] at hbr
      rcases hbr with ⟨hqt, hr⟩ | hr
      · have := hno (i - d) hs
        rcases hd with rfl | rfl
        · rw [show i - 1 + 1 = i by omega, hq, hqt] at this; exact this.1 rfl
        · rw [show i - 2 + 2 = i by omega, hq, hqt] at this; exact this.2 rfl
      · omega
    have hov : overlapOk 4 s.selector i = true := by
      unfold overlapOk
      split
      · rw [List.all_eq_true]
        intro d hd
        have hd' : d = 1 ∨ d = 2 := by
          rw [List.mem_range'] at hd; omega
        have := hsel d hd' (by omega)
        rw [List.getD_eq_getElem?_getD]
        cases hx : s.selector[i - d]? with
        | none => rfl
        | some b => cases b <;> simp_all
      · rfl
    rw [if_neg (by rw [hov]; simp)]
    have hg : st.gate + 1 < ncols := by
      refine lt_of_le_of_lt ?_ htot
      rw [Nat.le_div_iff_mul_le (by omega), Nat.add_mul]
      omega
    rw [if_pos hg]
    refine ⟨_, rfl, ?_, ?_, hins _⟩
    · intro d hd hdi hs
      simp only
      rcases hd with rfl | rfl
      · omega
      · exact absurd hs (by
          rw [show i + 1 - 2 = i - 1 by omega]
          exact hsel 1 (.inl rfl) (by omega))
    · simp only
      rw [Nat.add_mul]; omega
  · rw [if_neg hbr]
    refine ⟨_, rfl, ?_, by simp only; omega, hins _⟩
    intro d hd hdi hs
    simp only
    rcases hd with rfl | rfl
    · rw [show i + 1 - 1 = i by omega, hq] at hs
      simp only [Option.some.injEq] at hs
      subst hs
      simp [brk] at hbr
      omega
    · have := hb 1 (.inl rfl) (by omega) (by rw [show i - 1 = i + 1 - 2 by omega]; exact hs)
      omega

theorem awcCells_succeeds {mx ncols : ℕ} {s : Ctx p} (hmx : 4 ≤ mx) (hno : NonOverlap s) {total : ℕ}
    (htot : (total - 1) / (mx - 3) < ncols) (l : List (Assigned p × Bool)) : ∀ {i n : ℕ} {st : LState p},
    (∀ k e, l[k]? = some e → s.selector[i + k]? = some e.2) → Budget mx s i st.row →
    st.gate * (mx - 3) + st.row ≤ n → n + l.length ≤ total → (∀ k, i ≤ k → st.map (s.cellAt k) = none) →
    ∃ st', awcCells 4 mx ncols s i l st = some st' ∧ st'.gate * (mx - 3) + st'.row ≤ n + l.length ∧
      ∀ c, (∀ k, c ≠ s.cellAt k) → st'.map c = st.map c := by
  induction l with
  | nil => intro i n st _ _ hp _ _; exact ⟨st, rfl, by simpa using hp, fun c _ => rfl⟩
  | cons a t ih =>
    intro i n st hl hb hp hn hm
    obtain ⟨v, q⟩ := a
    have hq : s.selector[i]? = some q := by simpa using hl 0 (v, q) rfl
    have hn' : n + t.length + 1 ≤ total := by simpa [Nat.add_assoc] using hn
    obtain ⟨st1, h1, h2, h3, h4⟩ := awcCell_succeeds (v := v) hmx hno hq hb hp (by omega) htot (hm i le_rfl)
    obtain ⟨st', h5, h6, h7⟩ := ih (i := i + 1) (n := n + 1) (st := st1) (by
        intro k e he
        rw [show i + 1 + k = i + (k + 1) by omega]
        exact hl (k + 1) e he) h2 h3 (by omega) (by
        intro k hk
        rw [h4 _ (by simp [Ctx.cellAt]; omega)]
        exact hm k (by omega))
    refine ⟨st', ?_, ?_, ?_⟩
    · simp only [awcCells, Option.bind_eq_bind, h1, Option.bind_some, h5]
    · simp only [List.length_cons]; omega
    · intro c hc; rw [h7 c hc, h4 c (hc i)]

theorem cellAt_ne_of_tag {s s' : Ctx p} (h : Ctx.tag s ≠ Ctx.tag s') (i j : ℕ) : s.cellAt i ≠ s'.cellAt j := by
  intro e
  simp only [Ctx.cellAt, Cell.mk.injEq] at e
  exact h (by simp [Ctx.tag, e.1, e.2.1])

theorem awcThreads_succeeds {mx ncols : ℕ} (hmx : 4 ≤ mx) {total : ℕ} (htot : (total - 1) / (mx - 3) < ncols)
    (ts : List (Ctx p)) : ∀ {n : ℕ} {st : LState p}, (∀ s ∈ ts, NonOverlap s) →
    (∀ s ∈ ts, s.selector.length = s.advice.length) → (ts.map Ctx.tag).Nodup →
    (∀ s ∈ ts, ∀ k, st.map (s.cellAt k) = none) → st.gate * (mx - 3) + st.row ≤ n →
    n + (ts.map fun s => s.advice.length).sum ≤ total → ∃ st', awcThreads 4 mx ncols ts st = some st' := by
  induction ts with
  | nil => intro n st _ _ _ _ _ _; exact ⟨st, rfl⟩
  | cons s t ih =>
    intro n st hno hl htag hm hp hn
    simp only [List.map_cons, List.nodup_cons, List.sum_cons] at htag hn
    rw [awcThreads]
    by_cases he : s.advice = []
    · rw [if_pos he]
      exact ih (fun s hs => hno s (List.mem_cons_of_mem _ hs)) (fun s hs => hl s (List.mem_cons_of_mem _ hs)) htag.2
        (fun s hs => hm s (List.mem_cons_of_mem _ hs)) hp (by rw [he] at hn; simpa using hn)
    · have hpos : 0 < s.advice.length := List.length_pos_iff.2 he
      have hg : st.gate < ncols := by
        refine lt_of_le_of_lt ?_ htot
        rw [Nat.le_div_iff_mul_le (by omega)]
        omega
      have hls := hl s List.mem_cons_self
      rw [if_neg he, if_neg (by simpa using hg), if_neg (by simpa using hls)]
      have hzl : (s.advice.zip s.selector).length = s.advice.length := by simp [hls]
      obtain ⟨st1, h1, h2, h3⟩ := awcCells_succeeds (i := 0) (n := n) hmx (hno s List.mem_cons_self) htot
        (s.advice.zip s.selector) (st := st) (by
          intro k e hk
          rw [List.getElem?_zip_eq_some] at hk
          rw [Nat.zero_add]; exact hk.2) (by
          intro d hd hdi; omega) hp (by omega) (fun k _ => hm s List.mem_cons_self k)
      rw [h1]
      simp only [Option.bind_eq_bind, Option.bind_some]
      refine ih (n := n + s.advice.length) (fun s hs => hno s (List.mem_cons_of_mem _ hs))
        (fun s hs => hl s (List.mem_cons_of_mem _ hs)) htag.2 ?_ (by rw [← hzl]; exact h2) (by omega)
      intro s' hs' k
      rw [h3, hm s' (List.mem_cons_of_mem _ hs')]
      intro j
      refine (cellAt_ne_of_tag ?_ j k).symm
      intro e
      exact htag.1 (List.mem_map.2 ⟨s', hs', e.symm⟩)

/-! ## Lookups -/

theorem lkCols_isSome {setIdx off usable : ℕ} (ho : off < usable) (as : List (AV p)) : ∀ {j : ℕ} {map : CellMap}
    {reg : Region p}, (∀ a ∈ as, ∃ c, a.cell = some c ∧ (map c).isSome) →
    ∃ reg', lkCols setIdx off usable j as map reg = some (map, reg') := by
  induction as with
  | nil => intro j map reg _; exact ⟨reg, rfl⟩
  | cons a t ih =>
    intro j map reg h
    obtain ⟨c, hc, hm⟩ := h a List.mem_cons_self
    obtain ⟨x, hx⟩ := Option.isSome_iff_exists.1 hm
    rw [lkCols, if_pos ho]
    simp only [constrainExternal, hc, hx, Option.bind_eq_bind, Option.bind_some]
    exact ih fun a ha => h a (List.mem_cons_of_mem _ ha)

theorem lkLoop_isSome {nsets usable : ℕ} (L : List (List (AV p))) : ∀ {col off k : ℕ} {map : CellMap} {reg : Region p},
    off * nsets + col = k → col ≤ nsets → k + L.length ≤ nsets * usable →
    (∀ as ∈ L, ∀ a ∈ as, ∃ c, a.cell = some c ∧ (map c).isSome) →
    ∃ reg', lkLoop nsets usable L col off map reg = some (map, reg') := by
  induction L with
  | nil => intro col off k map reg _ _ _ _; exact ⟨reg, rfl⟩
  | cons as t ih =>
    intro col off k map reg hk hc hl h
    simp only [List.length_cons] at hl
    have hn : 0 < nsets := by
      rcases Nat.eq_zero_or_pos nsets with h0 | h0
      · rw [h0, Nat.zero_mul] at hl; omega
      · exact h0
    rw [lkLoop]
    by_cases hge : col ≥ nsets
    · simp only [hge, if_true, hn]
      have e : (off + 1) * nsets = k := by rw [Nat.add_mul]; omega
      have ho : off + 1 < usable := by
        by_contra hno
        have : usable * nsets ≤ (off + 1) * nsets := Nat.mul_le_mul_right _ (not_lt.1 hno)
        rw [Nat.mul_comm] at this; omega
      obtain ⟨r1, h1⟩ := lkCols_isSome (setIdx := 0) (j := 0) (reg := reg) ho as (h as List.mem_cons_self)
      rw [h1]
      simp only [Option.bind_eq_bind, Option.bind_some]
      exact ih (k := k + 1) (by omega) (by omega) (by omega) fun as' has' => h as' (List.mem_cons_of_mem _ has')
    · have hlt : col < nsets := by omega
      simp only [hge, if_false, hlt, if_true]
      have ho : off < usable := by
        by_contra hno
        have : usable * nsets ≤ off * nsets := Nat.mul_le_mul_right _ (not_lt.1 hno)
        rw [Nat.mul_comm] at this; omega
      obtain ⟨r1, h1⟩ := lkCols_isSome (setIdx := col) (j := 0) (reg := reg) ho as (h as List.mem_cons_self)
      rw [h1]
      simp only [Option.bind_eq_bind, Option.bind_some]
      exact ih (k := k + 1) (by omega) (by omega) (by omega) fun as' has' => h as' (List.mem_cons_of_mem _ has')

theorem instLoop_isSome {k : ℕ} {map : CellMap} (l : List (AV p)) : ∀ {i : ℕ},
    (∀ a ∈ l, ∃ c, a.cell = some c ∧ (map c).isSome) → ∃ r, instLoop k map i l = some r := by
  induction l with
  | nil => intro i _; exact ⟨[], rfl⟩
  | cons a t ih =>
    intro i h
    obtain ⟨c, hc, hm⟩ := h a List.mem_cons_self
    obtain ⟨x, hx⟩ := Option.isSome_iff_exists.1 hm
    obtain ⟨r, hr⟩ := ih (i := i + 1) fun a ha => h a (List.mem_cons_of_mem _ ha)
    exact ⟨_, by simp only [instLoop, Option.bind_eq_bind, hc, Option.bind_some, hx, hr, Option.pure_def]; rfl⟩

theorem instAll_isSome {map : CellMap} (L : List (List (AV p))) : ∀ {k : ℕ},
    (∀ l ∈ L, ∀ a ∈ l, ∃ c, a.cell = some c ∧ (map c).isSome) → ∃ r, instAll map k L = some r := by
  induction L with
  | nil => intro k _; exact ⟨[], rfl⟩
  | cons a t ih =>
    intro k h
    obtain ⟨r1, h1⟩ := instLoop_isSome (k := k) (i := 0) a (h a List.mem_cons_self)
    obtain ⟨r2, h2⟩ := ih (k := k + 1) fun l hl => h l (List.mem_cons_of_mem _ hl)
    exact ⟨r1 ++ r2, by simp only [instAll, Option.bind_eq_bind, h1, Option.bind_some, h2, Option.pure_def]⟩

end H2.Phys
