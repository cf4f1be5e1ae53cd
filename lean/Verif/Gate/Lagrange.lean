import Verif.Gate.Sound
import Verif.Gate.Complete
import Verif.Gate.CompleteList
import Mathlib.LinearAlgebra.Lagrange

/-! # `lagrange_and_eval`: soundness and completeness -/

set_option autoImplicit false
namespace H2
variable {p : ℕ} [Fact p.Prime] {tbl : ZMod p → Prop} {ext : Cell → ZMod p} {s : Ctx p}

theorem lagrangeZ_sound (x z : AV p) (l : List (AV p × AV p)) :
    Sound tbl (lagrangeZ x z l) (fun w r =>
      at' w r = at' w z * (l.map (fun c => at' w x - at' w c.1)).prod) := by
  induction l generalizing z with
  | nil => exact fun s => Snd.pure fun w _ => by simp
  | cons c l ih =>
    intro s
    refine Snd.bind (sub_sound _ _ s) fun d s1 _ => ?_
    refine Snd.bind (mul_sound _ _ s1) fun z' s2 _ => ?_
    refine (ih z' s2).weaken ?_
    rintro w r _ h ⟨a, b, ha, hb, hz⟩ ⟨a', b', ha', hb', hd⟩
    rw [h, hz, show a = at' w z from ha, show b = at' w d from hb, hd, show a' = at' w x from ha',
      show b' = at' w c.1 from hb', List.map_cons, List.prod_cons, mul_assoc]

theorem lagrangeDenom_sound (xi : AV p) (i : ℕ) (denom : AV p) (l : List (ℕ × AV p)) :
    Sound tbl (lagrangeDenom xi i denom l) (fun w r =>
      at' w r = at' w denom *
        (l.map (fun e => if i = e.1 then 1 else at' w xi - at' w e.2)).prod) := by
  induction l generalizing denom with
  | nil => exact fun s => Snd.pure fun w _ => by simp
  | cons e l ih =>
    obtain ⟨j, xj⟩ := e
    intro s
    unfold lagrangeDenom
    refine Snd.ite (fun hij => ?_) (fun hij => ?_)
    · refine (ih denom s).weaken ?_
      intro w r _ h
      beta_reduce at h ⊢
      rw [h]; simp [hij]
    · refine Snd.bind (sub_sound _ _ s) fun d s1 _ => ?_
      refine Snd.bind (mul_sound _ _ s1) fun z' s2 _ => ?_
      refine (ih z' s2).weaken ?_
      rintro w r _ h ⟨a, b, ha, hb, hz⟩ ⟨a', b', ha', hb', hd⟩
      rw [h, hz, show a = at' w denom from ha, show b = at' w d from hb, hd,
        show a' = at' w xi from ha', show b' = at' w xj from hb', List.map_cons, List.prod_cons,
        if_neg hij, mul_assoc]

/-- `(x - x_i) * prod_{j != i} (x_i - x_j)`. -/
def lagDen (w : Cell → ZMod p) (coords : List (AV p × AV p)) (x : AV p) (i : ℕ) (xi : AV p) : ZMod p :=
  (at' w x - at' w xi) *
    ((enumX coords).map (fun e => if i = e.1 then 1 else at' w xi - at' w e.2)).prod

theorem lagrangeEval_sound (coords : List (AV p × AV p)) (x : AV p) (l : List (ℕ × AV p × AV p))
    (ev : Option (AV p)) : Sound tbl (lagrangeEval coords x l ev) (fun w r =>
      (∀ e ∈ l, lagDen w coords x e.1 e.2.1 ≠ 0) ∧
      ((r = none ∧ ev = none ∧ l = []) ∨ ∃ a, r = some a ∧ at' w a = (ev.map (at' w)).getD 0
        + (l.map (fun e => at' w e.2.2 / lagDen w coords x e.1 e.2.1)).sum)) := by
  induction l generalizing ev with
  | nil =>
    refine fun s => Snd.pure fun w _ => ⟨by simp, ?_⟩
    cases ev with
    | none => exact Or.inl ⟨rfl, rfl, rfl⟩
    | some a => exact Or.inr ⟨a, rfl, by simp⟩
  | cons e l ih =>
    obtain ⟨i, xi, yi⟩ := e
    intro s
    unfold lagrangeEval
    refine Snd.bind (sub_sound _ _ s) fun d0 s1 _ => ?_
    refine Snd.bind (lagrangeDenom_sound xi i d0 _ s1) fun den s2 _ => ?_
    refine Snd.bind (isZero_sound den s2) fun isz s3 _ => ?_
    refine Snd.bind (assertIsConst_sound isz 0 s3) fun _ s4 _ => ?_
    refine Snd.bind (divUnsafe_sound _ _ s4) fun quot s5 _ => ?_
    refine Snd.bind (Q := fun w r _ => at' w r = (ev.map (at' w)).getD 0 + at' w quot) ?_
      fun ev' s6 _ => ?_
    · unfold lagrangeAcc
      cases ev with
      | none => exact Snd.pure fun w _ => by simp
      | some e =>
        refine (add_sound _ _ s5).weaken ?_
        rintro w r _ ⟨a, b, ha, hb, h⟩
        rw [h, show a = at' w e from ha, show b = at' w quot from hb]; simp
    · refine (ih (some ev') s6).weaken ?_
      rintro w r _ ⟨h1, h2⟩ hev ⟨a, b, ha, hb, hq⟩ hz hisz hden ⟨a', b', ha', hb', hd0⟩
      have hD : at' w den = lagDen w coords x i xi := by
        rw [hden, hd0, show a' = at' w x from ha', show b' = at' w xi from hb']; rfl
      have hne : lagDen w coords x i xi ≠ 0 := by
        rw [← hD]
        intro h0
        rw [hz, h0, if_pos rfl] at hisz
        exact one_ne_zero hisz.symm
      have hq' : at' w quot = at' w yi / lagDen w coords x i xi := by
        rw [eq_div_iff hne, ← hD, ← show b = at' w den from hb, hq, show a = at' w yi from ha]
      refine ⟨?_, ?_⟩
      · intro e he
        rcases List.mem_cons.1 he with rfl | he
        · exact hne
        · exact h1 e he
      · right
        rcases h2 with ⟨_, h, _⟩ | ⟨a2, ha2, hv⟩
        · cases h
        · refine ⟨a2, ha2, ?_⟩
          rw [hv, Option.map_some, Option.getD_some, hev, hq', List.map_cons, List.sum_cons, add_assoc]

/-- Enumerating a list, as a function of the index. -/
theorem range_zip {α : Type} (l : List α) :
    (List.range l.length).zip l = List.ofFn (fun i : Fin l.length => (i.1, l.get i)) := by
  apply List.ext_getElem
  · simp
  · intro i h1 h2
    simp

theorem enumX_eq (coords : List (AV p × AV p)) : enumX coords =
    List.ofFn (fun i : Fin coords.length => (i.1, (coords.get i).1)) := by
  have : enumX coords = ((List.range coords.length).zip coords).map (fun e => (e.1, e.2.1)) := by
    unfold enumX
    rw [List.zip_map_right]
    apply List.map_congr_left
    intros; rfl
  rw [this, range_zip, List.map_ofFn]
  rfl

/-- The specification: value at `X` of the interpolation polynomial through `(xs i, ys i)`. -/
theorem lagrange_value {n : ℕ} (xs ys : Fin n → ZMod p) (X : ZMod p)
    (hd : ∀ i, (X - xs i) * ∏ j, (if i = j then 1 else xs i - xs j) ≠ 0) :
    Function.Injective xs ∧ (∀ i, X ≠ xs i) ∧
    (∑ i, ys i / ((X - xs i) * ∏ j, (if i = j then 1 else xs i - xs j))) * ∏ i, (X - xs i)
      = Polynomial.eval X (Lagrange.interpolate Finset.univ xs ys) := by
  have hX : ∀ i, X ≠ xs i := fun i h => hd i (by rw [h]; simp)
  have hinj : Function.Injective xs := by
    intro i j h
    by_contra hij
    apply hd i
    rw [mul_eq_zero]; right
    apply Finset.prod_eq_zero (Finset.mem_univ j)
    rw [if_neg hij, h, sub_self]
  refine ⟨hinj, hX, ?_⟩
  rw [Lagrange.eval_interpolate_not_at_node _ (fun i _ => hX i), Lagrange.eval_nodal, mul_comm]
  congr 1
  apply Finset.sum_congr rfl
  intro i _
  have : ∏ j, (if i = j then 1 else xs i - xs j) = ∏ j ∈ Finset.univ.erase i, (xs i - xs j) := by
    rw [← Finset.mul_prod_erase _ _ (Finset.mem_univ i), if_pos rfl, one_mul]
    apply Finset.prod_congr rfl
    intro j hj
    rw [if_neg (Finset.ne_of_mem_erase hj).symm]
  rw [this, Lagrange.nodalWeight, Finset.prod_inv_distrib, div_eq_mul_inv, mul_inv]
  ring

/-- Soundness of `lagrange_and_eval`. -/
theorem lagrangeAndEval_sound (coords : List (AV p × AV p)) (x : AV p) :
    Sound tbl (lagrangeAndEval coords x) (fun w r =>
      let xs := fun i : Fin coords.length => at' w (coords.get i).1
      let ys := fun i : Fin coords.length => at' w (coords.get i).2
      Function.Injective xs ∧ (∀ i, at' w x ≠ xs i) ∧
      at' w r.1 = Polynomial.eval (at' w x) (Lagrange.interpolate Finset.univ xs ys) ∧
      at' w r.2 = ∏ i, (at' w x - xs i)) := by
  intro s
  cases coords with
  | nil => exact Snd.panic
  | cons c cs =>
    unfold lagrangeAndEval
    refine Snd.bind (sub_sound _ _ s) fun z0 s1 _ => ?_
    refine Snd.bind (lagrangeZ_sound x z0 cs s1) fun z s2 _ => ?_
    refine Snd.bind (lagrangeEval_sound (c :: cs) x _ none s2) fun ev s3 _ => ?_
    refine Snd.unwrap fun e he => ?_
    refine Snd.bind (mul_sound _ _ s3) fun out s4 _ => Snd.pure ?_
    rintro w - ⟨a, b, ha, hb, hout⟩ ⟨h1, h2⟩ hz ⟨a', b', ha', hb', hz0⟩
    set xs := fun i : Fin (c :: cs).length => at' w ((c :: cs).get i).1 with hxs
    set ys := fun i : Fin (c :: cs).length => at' w ((c :: cs).get i).2 with hys
    have hden : ∀ i : Fin (c :: cs).length, lagDen w (c :: cs) x i.1 ((c :: cs).get i).1 =
        (at' w x - xs i) * ∏ j, (if i = j then 1 else xs i - xs j) := by
      intro i
      rw [lagDen, enumX_eq, List.map_ofFn, List.prod_ofFn]
      congr 1
      apply Finset.prod_congr rfl
      intro j _
      simp only [Function.comp, Fin.ext_iff]
      rfl
    have hd : ∀ i : Fin (c :: cs).length, (at' w x - xs i) * ∏ j, (if i = j then 1 else xs i - xs j) ≠ 0 := by
      intro i
      rw [← hden]
      refine h1 (i.1, (c :: cs).get i) ?_
      rw [range_zip, List.mem_ofFn]
      exact ⟨i, rfl⟩
    obtain ⟨k1, k2, k3⟩ := lagrange_value xs ys (at' w x) hd
    have hz' : at' w z = ∏ i, (at' w x - xs i) := by
      rw [hz, hz0, show a' = at' w x from ha', show b' = at' w c.1 from hb']
      have := List.prod_ofFn (f := fun i : Fin (c :: cs).length => at' w x - xs i)
      rw [← this]
      have h3 : List.ofFn (fun i : Fin (c :: cs).length => at' w x - xs i)
          = (c :: cs).map (fun e => at' w x - at' w e.1) := by
        apply List.ext_getElem
        · simp
        · intro i h1 h2
          simp only [List.getElem_ofFn, List.getElem_map, hxs, List.get_eq_getElem]
      rw [h3, List.map_cons, List.prod_cons]
    refine ⟨k1, k2, ?_, hz'⟩
    rcases h2 with ⟨_, _, h⟩ | ⟨a2, ha2, hv⟩
    · simp at h
    · rw [he] at ha2
      cases ha2
      rw [hout, show a = at' w e from ha, show b = at' w z from hb, hz', hv, ← k3]
      congr 1
      rw [range_zip, List.map_ofFn, List.sum_ofFn]
      simp only [Option.map_none, Option.getD_none, zero_add]
      apply Finset.sum_congr rfl
      intro i _
      simp only [Function.comp, hden]
      rfl

theorem lagrangeZ_cmp {x z : AV p} {X Z : ZMod p} {l : List (AV p × AV p)} {xs : List (ZMod p)}
    (hx : Con ext s x X) (hz : Con ext s z Z) (hl : AvsCon ext s (l.map Prod.fst) xs) :
    Cmp tbl ext s (lagrangeZ x z l) (fun r s' =>
      Con ext s' r (Z * (xs.map (fun a => X - a)).prod)) := by
  induction l generalizing z Z s xs with
  | nil =>
    cases hl
    exact Cmp.pure (by simpa using hz)
  | cons c l ih =>
    cases hl with
    | @cons _ a _ xs h1 h2 =>
      refine Cmp.bind (sub_cmp (a := .existing x) (b := .existing c.1) hx h1) fun d s1 e1 hd => ?_
      refine Cmp.bind (mul_cmp (a := .existing z) (b := .existing d) (hz.mono e1) hd) fun z' s2 e2 hz' => ?_
      refine (ih (hx.mono (e1.trans e2)) hz' (AvsCon.mono h2 (e1.trans e2))).weaken fun r s' h => ?_
      simpa [mul_assoc] using h

theorem lagrangeDenom_cmp {xi denom : AV p} {Xi D : ZMod p} {i : ℕ} {l : List (ℕ × AV p)}
    {zs : List (ℕ × ZMod p)} (hx : Con ext s xi Xi) (hd : Con ext s denom D)
    (hl : List.Forall₂ (fun (e : ℕ × AV p) (z : ℕ × ZMod p) => e.1 = z.1 ∧ Con ext s e.2 z.2) l zs) :
    Cmp tbl ext s (lagrangeDenom xi i denom l) (fun r s' =>
      Con ext s' r (D * (zs.map (fun e => if i = e.1 then 1 else Xi - e.2)).prod)) := by
  induction l generalizing denom D s zs with
  | nil =>
    cases hl
    exact Cmp.pure (by simpa using hd)
  | cons e l ih =>
    obtain ⟨j, xj⟩ := e
    cases hl with
    | @cons _ z _ zs h1 h2 =>
      obtain ⟨j', Xj⟩ := z
      obtain ⟨rfl, h1⟩ := h1
      unfold lagrangeDenom
      by_cases hij : i = j
      · rw [if_pos hij]
        refine (ih hx hd h2).weaken fun r s' h => ?_
        simpa [hij] using h
      · rw [if_neg hij]
        refine Cmp.bind (sub_cmp (a := .existing xi) (b := .existing xj) hx h1) fun d s1 e1 hd1 => ?_
        refine Cmp.bind (mul_cmp (a := .existing denom) (b := .existing d) (hd.mono e1) hd1)
          fun z' s2 e2 hz' => ?_
        refine (ih (hx.mono (e1.trans e2)) hz' (List.Forall₂.imp
          (fun _ _ h => ⟨h.1, h.2.mono (e1.trans e2)⟩) h2)).weaken fun r s' h => ?_
        simpa [mul_assoc, hij] using h

/-- Denominator, on values. -/
def lagDenV (xs : List (ZMod p)) (X : ZMod p) (i : ℕ) (Xi : ZMod p) : ZMod p :=
  (X - Xi) * (((List.range xs.length).zip xs).map (fun e => if i = e.1 then 1 else Xi - e.2)).prod

/-- The pairs `coords` hold the values `zs`. -/
def CoordsCon (ext : Cell → ZMod p) (s : Ctx p) (l : List (AV p × AV p)) (zs : List (ZMod p × ZMod p)) :
    Prop := List.Forall₂ (fun c z => Con ext s c.1 z.1 ∧ Con ext s c.2 z.2) l zs

theorem CoordsCon.mono {s s' : Ctx p} {l : List (AV p × AV p)} {zs : List (ZMod p × ZMod p)}
    (h : CoordsCon ext s l zs) (e : Ext s s') : CoordsCon ext s' l zs :=
  List.Forall₂.imp (fun _ _ h => ⟨h.1.mono e, h.2.mono e⟩) h

theorem CoordsCon.enumX {l : List (AV p × AV p)} {zs : List (ZMod p × ZMod p)}
    (h : CoordsCon ext s l zs) :
    List.Forall₂ (fun (e : ℕ × AV p) (z : ℕ × ZMod p) => e.1 = z.1 ∧ Con ext s e.2 z.2) (enumX l)
      ((List.range (zs.map Prod.fst).length).zip (zs.map Prod.fst)) := by
  have hl := List.Forall₂.length_eq h
  rw [List.forall₂_iff_get]
  refine ⟨by simp [H2.enumX, hl], fun i h1 h2 => ?_⟩
  have := (List.forall₂_iff_get.1 h).2 i (by simpa [H2.enumX] using h1) (by simpa using h2)
  simp only [H2.enumX, List.get_eq_getElem, List.getElem_zip, List.getElem_range, List.getElem_map]
  exact ⟨trivial, this.1⟩

theorem lagrangeEval_cmp {coords : List (AV p × AV p)} {zs : List (ZMod p × ZMod p)} {x : AV p}
    {X : ZMod p} {l : List (ℕ × AV p × AV p)} {ls : List (ℕ × ZMod p × ZMod p)}
    {ev : Option (AV p)} {E : ZMod p} (hc : CoordsCon ext s coords zs) (hx : Con ext s x X)
    (hl : List.Forall₂ (fun (e : ℕ × AV p × AV p) (z : ℕ × ZMod p × ZMod p) =>
      e.1 = z.1 ∧ Con ext s e.2.1 z.2.1 ∧ Con ext s e.2.2 z.2.2) l ls)
    (hev : ∀ a, ev = some a → Con ext s a E) (hev0 : ev = none → E = 0)
    (hne : ∀ e ∈ ls, lagDenV (zs.map Prod.fst) X e.1 e.2.1 ≠ 0)
    (hsome : ev ≠ none ∨ l ≠ []) :
    Cmp tbl ext s (lagrangeEval coords x l ev) (fun r s' => ∃ a, r = some a ∧
      Con ext s' a (E + (ls.map (fun e => e.2.2 / lagDenV (zs.map Prod.fst) X e.1 e.2.1)).sum)) := by
  induction l generalizing s ls ev E with
  | nil =>
    cases hl
    cases ev with
    | none => simp at hsome
    | some a => exact Cmp.pure ⟨a, rfl, by simpa using hev a rfl⟩
  | cons e l ih =>
    obtain ⟨i, xi, yi⟩ := e
    cases hl with
    | @cons _ z _ ls h1 h2 =>
      obtain ⟨i', Xi, Yi⟩ := z
      obtain ⟨rfl, h1, h1'⟩ := h1
      simp only at h1 h1'
      unfold lagrangeEval
      refine Cmp.bind (sub_cmp (a := .existing x) (b := .existing xi) hx h1) fun d0 s1 e1 hd0 => ?_
      refine Cmp.bind (lagrangeDenom_cmp (h1.mono e1) hd0 (CoordsCon.enumX (hc.mono e1)))
        fun den s2 e2 hden => ?_
      have hD : lagDenV (zs.map Prod.fst) X i Xi ≠ 0 := hne (i, Xi, Yi) (by simp)
      change Con ext s2 den (lagDenV (zs.map Prod.fst) X i Xi) at hden
      refine Cmp.bind (isZero_cmp hden) fun isz s3 e3 hisz => ?_
      rw [if_neg hD] at hisz
      refine Cmp.bind (assertIsConst_cmp hisz.conF) fun _ s4 e4 _ => ?_
      have e14 := ((e1.trans e2).trans e3).trans e4
      refine Cmp.bind (divUnsafe_cmp (a := .existing yi) (b := .existing den) (h1'.mono e14)
        (hden.mono (e3.trans e4)) hD) fun quot s5 e5 hq => ?_
      refine Cmp.bind (Q := fun r s' => Con ext s' r (E + Yi / lagDenV (zs.map Prod.fst) X i Xi)) ?_
        fun ev' s6 e6 hev' => ?_
      · unfold lagrangeAcc
        cases ev with
        | none => exact Cmp.pure (by simpa [hev0 rfl] using hq)
        | some a => exact add_cmp (a := .existing a) (b := .existing quot) ((hev a rfl).mono (e14.trans e5)) hq
      · have e16 := (e14.trans e5).trans e6
        refine (ih (ls := ls) (ev := some ev') (hc.mono e16) (hx.mono e16) (List.Forall₂.imp
          (fun _ _ h => ⟨h.1, h.2.1.mono e16, h.2.2.mono e16⟩) h2) (by
            rintro a ⟨⟩; exact hev') (by simp) (fun e he => hne e (by simp [he])) (by simp)).weaken ?_
        rintro r s' ⟨a, ha, hca⟩
        exact ⟨a, ha, by simpa [add_assoc] using hca⟩

/-- Completeness of `lagrange_and_eval`: distinct nodes, none equal to `x`. -/
theorem lagrangeAndEval_cmp {coords : List (AV p × AV p)} {zs : List (ZMod p × ZMod p)} {x : AV p}
    {X : ZMod p} (hne : coords ≠ []) (hc : CoordsCon ext s coords zs) (hx : Con ext s x X)
    (hinj : Function.Injective (fun i : Fin zs.length => (zs.get i).1))
    (hX : ∀ i : Fin zs.length, X ≠ (zs.get i).1) :
    Cmp tbl ext s (lagrangeAndEval coords x) (fun r s' =>
      Con ext s' r.1 (Polynomial.eval X (Lagrange.interpolate Finset.univ
        (fun i : Fin zs.length => (zs.get i).1) (fun i : Fin zs.length => (zs.get i).2))) ∧
      Con ext s' r.2 (∏ i : Fin zs.length, (X - (zs.get i).1))) := by
  set xs := fun i : Fin zs.length => (zs.get i).1 with hxs
  set ys := fun i : Fin zs.length => (zs.get i).2 with hys
  have hden : ∀ i : Fin zs.length, lagDenV (zs.map Prod.fst) X i.1 (xs i) =
      (X - xs i) * ∏ j, (if i = j then 1 else xs i - xs j) := by
    intro i
    have : (List.range (zs.map Prod.fst).length).zip (zs.map Prod.fst)
        = List.ofFn (fun j : Fin zs.length => (j.1, xs j)) := by
      apply List.ext_getElem
      · simp
      · intro j h1 h2
        simp [hxs]
    rw [lagDenV, this, List.map_ofFn, List.prod_ofFn]
    congr 1
    apply Finset.prod_congr rfl
    intro j _
    simp only [Function.comp, Fin.ext_iff]
  have hd : ∀ i : Fin zs.length, (X - xs i) * ∏ j, (if i = j then 1 else xs i - xs j) ≠ 0 := by
    intro i
    refine mul_ne_zero (sub_ne_zero.2 (hX i)) (Finset.prod_ne_zero_iff.2 fun j _ => ?_)
    split
    · exact one_ne_zero
    · rename_i h
      exact sub_ne_zero.2 fun h' => h (hinj h')
  obtain ⟨-, -, k3⟩ := lagrange_value xs ys X hd
  cases hc with
  | nil => exact absurd rfl hne
  | @cons c z cs zs' h1 h2 =>
    unfold lagrangeAndEval
    refine Cmp.bind (sub_cmp (a := .existing x) (b := .existing c.1) hx h1.1) fun z0 s1 e1 hz0 => ?_
    have hf : AvsCon ext s1 (cs.map Prod.fst) (zs'.map Prod.fst) := by
      have := List.Forall₂.imp (S := fun (c : AV p × AV p) (z : ZMod p × ZMod p) => Con ext s1 c.1 z.1)
        (fun _ _ h => h.1.mono e1) h2
      unfold AvsCon
      rwa [List.forall₂_map_left_iff, List.forall₂_map_right_iff]
    refine Cmp.bind (lagrangeZ_cmp (hx.mono e1) hz0 hf) fun zz s2 e2 hzz => ?_
    have e12 := e1.trans e2
    have hcc : CoordsCon ext s2 (c :: cs) (z :: zs') := CoordsCon.mono (List.Forall₂.cons h1 h2) e12
    have hll := List.Forall₂.length_eq hcc
    refine Cmp.bind (lagrangeEval_cmp (E := 0) (ls := (List.range (z :: zs').length).zip (z :: zs')) hcc
      (hx.mono e12) ?_ (by simp) (by simp) ?_ (by right; simp)) fun ev s3 e3 ⟨a, ha, hev⟩ => ?_
    · rw [List.forall₂_iff_get]
      refine ⟨by simp at hll ⊢; omega, fun i h1 h2 => ?_⟩
      have := (List.forall₂_iff_get.1 hcc).2 i (by simpa using h1) (by simpa using h2)
      simp only [List.get_eq_getElem, List.getElem_zip, List.getElem_range]
      exact ⟨trivial, this⟩
    · intro e he
      rw [range_zip, List.mem_ofFn] at he
      obtain ⟨i, rfl⟩ := he
      have := hd i
      rw [← hden i] at this
      exact this
    refine Cmp.unwrap ha ?_
    refine Cmp.bind (mul_cmp (a := .existing a) (b := .existing zz) hev (hzz.mono e3)) fun out s4 e4 hout => ?_
    have hz' : (X - z.1) * ((zs'.map Prod.fst).map (fun a => X - a)).prod = ∏ i, (X - xs i) := by
      have := List.prod_ofFn (f := fun i : Fin (z :: zs').length => X - xs i)
      rw [← this]
      have h3 : List.ofFn (fun i : Fin (z :: zs').length => X - xs i)
          = (z :: zs').map (fun e => X - e.1) := by
        apply List.ext_getElem
        · simp
        · intro i h1 h2
          simp only [List.getElem_ofFn, List.getElem_map, hxs, List.get_eq_getElem]
      rw [h3, List.map_cons, List.prod_cons, List.map_map]
      rfl
    refine Cmp.pure ⟨?_, ?_⟩
    · convert hout using 1
      rw [hz', ← k3]
      congr 1
      rw [range_zip, List.map_ofFn, List.sum_ofFn, zero_add]
      apply Finset.sum_congr rfl
      intro i _
      simp only [Function.comp, ← hden]
      rfl
    · rw [← hz']
      exact hzz.mono (e3.trans e4)

end H2
