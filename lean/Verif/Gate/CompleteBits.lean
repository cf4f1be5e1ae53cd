import Verif.Gate.CompleteList
import Verif.Gate.SoundBits

/-! # Completeness of the bit, indicator and power routines -/

set_option autoImplicit false
namespace H2
variable {p : ℕ} [Fact p.Prime] {tbl : ZMod p → Prop} {ext : Cell → ZMod p} {s : Ctx p}

omit [Fact p.Prime] in
theorem limbsOf_succ (n k b : ℕ) :
    limbsOf n (k + 1) b = limbsOf n k b ++ [n / 2 ^ (b * k) % 2 ^ b] := by
  simp [limbsOf, List.range_succ]

theorem limbsOf_length (n k b : ℕ) : (limbsOf n k b).length = k := by simp [limbsOf]

/-- The limbs recompose to the number modulo `2^(b k)`. -/
theorem limbsOf_ofDigits (n k b : ℕ) : Nat.ofDigits (2 ^ b) (limbsOf n k b) = n % 2 ^ (b * k) := by
  induction k with
  | zero => simp [limbsOf, Nat.mod_one]
  | succ k ih =>
    rw [limbsOf_succ, Nat.ofDigits_append, ih, Nat.ofDigits_singleton, limbsOf_length, ← pow_mul,
      Nat.mul_succ, pow_add, Nat.mod_mul]

theorem limbsOf_lt (n k b : ℕ) : ∀ x ∈ limbsOf n k b, x < 2 ^ b := by
  intro x hx
  simp only [limbsOf, List.mem_map] at hx
  obtain ⟨i, _, rfl⟩ := hx
  exact Nat.mod_lt _ (by positivity)

theorem sliceTo_pure {α : Type} {l : List α} {n : ℕ} (h : n ≤ l.length) :
    (sliceTo l n : M p _) = pure (l.take n) := by simp [sliceTo, h]

theorem innerProduct_cmpA {a b : List (QCell p)} {xs ys : List (ZMod p)}
    (ha : QsConT ext s a xs) (hb : QsConT ext s b ys) (hlen : a.length = b.length) :
    Cmp tbl ext s (innerProduct a b) (fun r s' => Con ext s' r (dot xs ys) ∧
      s'.advice = s.advice ++ (ipVals (startsWithOne b) xs ys).map .trivial) := by
  have hl : xs.length = ys.length := by rw [← ha.length, ← hb.length, hlen]
  refine Cmp.bind (innerProductSimple_cmp ha hb hlen) fun one s1 _ ⟨h1, h2, h3⟩ => ?_
  subst h1
  exact (lastM_con h3 (ipVals_last hl h2)).weaken fun _ _ h => ⟨h.2, h.1 ▸ h3⟩

theorem spBody_cmp {l : List (ZMod p × QCell p × QCell p)} {xs ys : List (ZMod p)}
    (hx : QsConT ext s (l.map (·.2.1)) xs) (hy : QsConT ext s (l.map (·.2.2)) ys) :
    Cmp tbl ext s (spBody l) (fun r s' => ∃ us ts, QsConT ext s' (r.map Prod.fst) us ∧
      QsConT ext s' (r.map Prod.snd) ts ∧ dot us ts = sumCoeff (l.map (·.1)) xs ys) := by
  induction l generalizing xs ys s with
  | nil => exact Cmp.pure ⟨[], [], .nil, .nil, by simp [sumCoeff]⟩
  | cons e l ih =>
    obtain ⟨c, a, b⟩ := e
    cases hx with
    | @cons _ x _ xs hx1 hx2 =>
      cases hy with
      | @cons _ y _ ys hy1 hy2 =>
        unfold spBody
        split
        · rename_i hc
          refine Cmp.bind (ih hx2 hy2) fun r s1 e1 ⟨us, ts, hu, ht, hd⟩ => Cmp.pure ?_
          refine ⟨x :: us, y :: ts, .cons (QCon.mono hx1 e1) hu, .cons (QCon.mono hy1 e1) ht, ?_⟩
          simp [sumCoeff] at hd ⊢
          rw [hd, hc, one_mul]
        · split
          · refine Cmp.bind (mul_cmp hx1 hy1) fun m s1 e1 hm => ?_
            refine Cmp.bind (ih (QsConT.mono hx2 e1) (QsConT.mono hy2 e1))
              fun r s2 e2 ⟨us, ts, hu, ht, hd⟩ => Cmp.pure ?_
            refine ⟨(x * y) :: us, c :: ts, .cons (hm.mono e2) hu, .cons rfl ht, ?_⟩
            simp [sumCoeff] at hd ⊢
            rw [hd]; ring
          · rename_i hc
            refine (ih hx2 hy2).weaken fun r s1 ⟨us, ts, hu, ht, hd⟩ => ⟨us, ts, hu, ht, ?_⟩
            simp at hc
            simp [sumCoeff] at hd ⊢
            rw [hd, hc]; ring

theorem sumProductsWithCoeffAndVar_cmp {l : List (ZMod p × QCell p × QCell p)} {var : QCell p}
    {v : ZMod p} {xs ys : List (ZMod p)} (hv : QCon ext s var v)
    (hx : QsConT ext s (l.map (·.2.1)) xs) (hy : QsConT ext s (l.map (·.2.2)) ys) :
    Cmp tbl ext s (sumProductsWithCoeffAndVar l var)
      (fun r s' => Con ext s' r (v + sumCoeff (l.map (·.1)) xs ys)) := by
  refine Cmp.bind (spBody_cmp hx hy) fun r s1 e1 ⟨us, ts, hu, ht, hd⟩ => ?_
  have h1 : QsConT ext s1 (var :: r.map Prod.fst) (v :: us) := .cons (hv.mono e1) hu
  have h2 : QsConT ext s1 (.constant 1 :: r.map Prod.snd) (1 :: ts) := .cons rfl ht
  refine (innerProduct_cmp h1 h2 (by simp)).weaken fun r s' h => ?_
  rwa [dot_cons, mul_one, hd] at h

theorem assertBits_cmp {as : List (AV p)} {xs : List (ZMod p)} (h : AvsCon ext s as xs)
    (hb : ∀ x ∈ xs, x = 0 ∨ x = 1) : Cmp tbl ext s (assertBits as) (fun _ _ => True) := by
  induction as generalizing s xs with
  | nil => exact Cmp.pure trivial
  | cons a as ih =>
    cases h with
    | @cons _ x _ xs h1 h2 =>
      refine Cmp.bind (assertBit_cmp h1 (hb x (by simp))) fun _ s1 e1 _ => ?_
      exact ih (AvsCon.mono h2 e1) fun y hy => hb y (by simp [hy])

theorem bit_cast {b : ℕ} (h : b < 2) : (b : ZMod p) = 0 ∨ (b : ZMod p) = 1 := by
  interval_cases b <;> simp

theorem numToBits_cmp {a : AV p} {x : ZMod p} {n : ℕ} (ha : Con ext s a x) (h1 : 1 ≤ n)
    (hn : n ≤ numBits p) (hx : x.val < 2 ^ n) :
    Cmp tbl ext s (numToBits a n) (fun rs s' =>
      AvsCon ext s' rs ((limbsOf x.val n 1).map (fun b : ℕ => (b : ZMod p)))) := by
  have hn' : n ≤ (powOfTwo p).length := by simpa [powOfTwo] using hn
  refine Cmp.unwrap ha.val (adviceLen_cmp ?_)
  rw [sliceTo_pure hn', pure_bind, powOfTwo_take hn']
  have hbl : (limbsOf x.val n 1).length = n := limbsOf_length _ _ _
  have hW : QsConT ext s ((limbsOf x.val n 1).map (fun b : ℕ => (.witness (b : ZMod p) : QCell p)))
      ((limbsOf x.val n 1).map (fun b : ℕ => (b : ZMod p))) := by
    have := QsConT.witnesses (ext := ext) (s := s) ((limbsOf x.val n 1).map (fun b : ℕ => (b : ZMod p)))
    rwa [List.map_map] at this
  refine Cmp.bind (innerProduct_cmpA hW (QsConT.constants _) (by simp [hbl])) fun acc s1 e1 ⟨hacc, hadv⟩ => ?_
  have hdot : dot ((limbsOf x.val n 1).map (fun b : ℕ => (b : ZMod p)))
      ((List.range n).map (fun i : ℕ => (2 : ZMod p) ^ i)) = x := by
    have := dot_pow2 (p := p) (limbsOf x.val n 1)
    rw [hbl] at this
    rw [this]
    have h2 := limbsOf_ofDigits x.val n 1
    rw [pow_one] at h2
    rw [h2, one_mul, Nat.mod_eq_of_lt hx]
    exact ZMod.natCast_zmod_val x
  rw [hdot] at hacc
  refine Cmp.bind (constrainEqual_cmp (ha.conF.mono e1) hacc.conF) fun _ s2 e2 h2 => ?_
  have hone : startsWithOne ((List.range n).map (fun i : ℕ => (2 : ZMod p) ^ i) |>.map
      (QCell.constant : ZMod p → QCell p)) = true := by
    obtain ⟨m, rfl⟩ : ∃ m, n = m + 1 := ⟨n - 1, by omega⟩
    rw [startsWithOne_iff, List.range_succ_eq_map]; simp
  rw [hone] at hadv
  have hgets := ipGets_cmp (tbl := tbl) (ext := ext) (s := s2) (one := true) (row := s.advice.length)
    (xs := (limbsOf x.val n 1).map (fun b : ℕ => (b : ZMod p)))
    (ys := (List.range n).map (fun i : ℕ => (2 : ZMod p) ^ i)) (by simp [hbl]) rfl
    (by rw [h2, hadv])
  obtain ⟨m, rfl⟩ : ∃ m, n = m + 1 := ⟨n - 1, by omega⟩
  simp only [List.length_map, hbl, List.range_succ_eq_map, List.map_cons, List.map_map] at hgets
  have e : (do
      let b0 ← getM (s.advice.length : ℤ)
      let bs ← getsM ((List.range (m + 1 - 1)).map (fun i : ℕ => ((s.advice.length + 1 + 3 * i : ℕ) : ℤ)))
      assertBits (b0 :: bs)
      pure (b0 :: bs) : M p (List (AV p))) = (do
      let rs ← getsM (((s.advice.length + ipRow true 0 : ℕ) : ℤ) :: List.map
        ((fun i : ℕ => ((s.advice.length + ipRow true i : ℕ) : ℤ)) ∘ Nat.succ) (List.range m))
      assertBits rs
      pure rs) := by
    simp only [getsM, bind_assoc, pure_bind, ipRow, if_true, Nat.add_zero, Nat.add_sub_cancel]
    congr 1; funext b0
    congr 2
    apply List.map_congr_left
    intro i _
    simp [add_assoc]
  rw [e]
  refine Cmp.bind hgets fun rs s3 _ ⟨e3, hrs⟩ => ?_
  subst e3
  refine Cmp.bind (assertBits_cmp hrs ?_) fun _ s4 e4 _ => Cmp.pure (AvsCon.mono hrs e4)
  intro y hy
  simp only [List.mem_map] at hy
  obtain ⟨b, hb, rfl⟩ := hy
  exact bit_cast (by simpa using limbsOf_lt _ _ _ b hb)

theorem bitsToNum_cmp {bits : List (AV p)} {bs : List ℕ}
    (h : AvsCon ext s bits (bs.map (fun b : ℕ => (b : ZMod p)))) (hn : bits.length ≤ capacity p) :
    Cmp tbl ext s (bitsToNum bits) (fun r s' => Con ext s' r ((Nat.ofDigits 2 bs : ℕ) : ZMod p)) := by
  have hn' : bits.length ≤ (powOfTwo p).length := by
    simp only [powOfTwo, List.length_map, List.length_range, capacity] at hn ⊢; omega
  have hl : bits.length = bs.length := by simpa using List.Forall₂.length_eq h
  refine Cmp.assert (by simpa using hn) ?_
  rw [sliceTo_pure hn', pure_bind, powOfTwo_take hn']
  refine (innerProduct_cmp (QsConT.existing h) (QsConT.constants _) (by simp)).weaken fun r s' h => ?_
  rwa [hl, dot_pow2] at h

theorem powSquare_cmp {first : Bool} {acc : AV p} {x : ZMod p} (h : Con ext s acc x) :
    Cmp tbl ext s (powSquare first acc) (fun r s' => Con ext s' r (if first then x else x * x)) := by
  unfold powSquare
  cases first
  · exact mul_cmp (a := .existing acc) (b := .existing acc) h h
  · exact Cmp.pure h

theorem powVarLoop_cmp {a acc : AV p} {bits : List (AV p)} {x : ZMod p} {first : Bool} {v : ℕ}
    {bs : List ℕ} (ha : Con ext s a x) (hacc : Con ext s acc (x ^ v))
    (hb : AvsCon ext s bits (bs.map (fun b : ℕ => (b : ZMod p)))) (h2 : ∀ b ∈ bs, b < 2)
    (hf : first = true → v = 0) :
    Cmp tbl ext s (powVarLoop a first acc bits) (fun r s' =>
      Con ext s' r (x ^ (v * 2 ^ bs.length + Nat.ofDigits 2 bs.reverse))) := by
  induction bits generalizing s acc v first bs with
  | nil =>
    have : bs = [] := by
      have := List.Forall₂.length_eq hb
      simpa using this.symm
    subst this
    exact Cmp.pure (by simpa using hacc)
  | cons bit bits ih =>
    cases bs with
    | nil => cases hb
    | cons b bs =>
      cases hb with
      | cons hb1 hb2 =>
        refine Cmp.bind (powSquare_cmp hacc) fun sq s1 e1 hsq => ?_
        have hsq' : Con ext s1 sq (x ^ (2 * v)) := by
          cases first with
          | true => simpa [hf rfl] using hsq
          | false =>
            simp only [Bool.false_eq_true, if_false] at hsq
            rwa [← pow_add, ← two_mul] at hsq
        refine Cmp.bind (mul_cmp (a := .existing sq) (b := .existing a) hsq' (ha.mono e1)) fun m s2 e2 hm => ?_
        refine Cmp.bind (select_cmp (a := .existing m) (b := .existing sq) (c := .existing bit) hm
          (hsq'.mono e2) (hb1.mono (e1.trans e2))) fun acc' s3 e3 hs => ?_
        have hb' : b < 2 := h2 b (by simp)
        have hv : ((x ^ (2 * v) * x - x ^ (2 * v)) * (b : ZMod p) + x ^ (2 * v)) = x ^ (2 * v + b) := by
          interval_cases b <;> simp [pow_succ]
        rw [hv] at hs
        have e123 := (e1.trans e2).trans e3
        refine (ih (ha.mono e123) hs (AvsCon.mono hb2 e123)
          (fun b' hb' => h2 b' (by simp [hb'])) (by simp)).weaken fun r s' h => ?_
        convert h using 2
        rw [List.reverse_cons, Nat.ofDigits_append, Nat.ofDigits_singleton, List.length_cons,
          List.length_reverse]
        ring

theorem powVar_cmp {a exp : AV p} {x e : ZMod p} {n : ℕ} (ha : Con ext s a x)
    (he : Con ext s exp e) (h1 : 1 ≤ n) (hn : n ≤ numBits p) (hx : e.val < 2 ^ n) :
    Cmp tbl ext s (powVar a exp n) (fun r s' => Con ext s' r (x ^ e.val)) := by
  refine Cmp.bind (numToBits_cmp he h1 hn hx) fun bits s1 e1 hbits => ?_
  refine Cmp.bind (loadConstant_cmp 1) fun acc s2 e2 hacc => ?_
  have hrev : AvsCon ext s2 bits.reverse ((limbsOf e.val n 1).reverse.map (fun b : ℕ => (b : ZMod p))) := by
    rw [List.map_reverse]
    exact List.rel_reverse (AvsCon.mono hbits e2)
  refine (powVarLoop_cmp (v := 0) (ha.mono (e1.trans e2)) (by simpa using hacc) hrev ?_ (by simp)).weaken
    fun r s' h => ?_
  · intro b hb
    have := limbsOf_lt _ _ _ b (List.mem_reverse.1 hb)
    omega
  · have h2 := limbsOf_ofDigits e.val n 1
    rw [pow_one, one_mul, Nat.mod_eq_of_lt hx] at h2
    simpa [h2] using h

theorem AvsCon.append {as bs : List (AV p)} {xs ys : List (ZMod p)} (h : AvsCon ext s as xs)
    (k : AvsCon ext s bs ys) : AvsCon ext s (as ++ bs) (xs ++ ys) := List.rel_append h k

theorem AvsCon.get {as : List (AV p)} {xs : List (ZMod p)} (h : AvsCon ext s as xs) {i : ℕ}
    (hi : i < xs.length) : ∃ a, as[i]? = some a ∧ Con ext s a (xs.getD i 0) := by
  have hl := List.Forall₂.length_eq h
  refine ⟨as[i]'(by omega), List.getElem?_eq_getElem _, ?_⟩
  have := (List.forall₂_iff_get.1 h).2 i (by omega) hi
  simpa [List.getD_eq_getElem?_getD, List.getElem?_eq_getElem hi] using this

theorem indicatorInner_cmp {bit : AV p} {b : ZMod p} {offset : ℕ} {olds : List ℕ}
    {ind : List (AV p)} {vals : List (ZMod p)} (hbit : Con ext s bit b)
    (h : AvsCon ext s ind vals) (ho : ∀ o ∈ olds, offset + o < vals.length) :
    Cmp tbl ext s (indicatorInner bit offset olds ind) (fun ind' s' =>
      AvsCon ext s' ind' (vals ++ expandBit b (olds.map (fun o => vals.getD (offset + o) 0)))) := by
  induction olds generalizing s ind vals with
  | nil => exact Cmp.pure (by simpa [expandBit] using h)
  | cons o olds ih =>
    obtain ⟨e, he1, he2⟩ := h.get (ho o (by simp))
    unfold indicatorInner
    refine Cmp.unwrap he1 (Cmp.unwrap hbit.val (Cmp.unwrap he2.val ?_))
    set x := vals.getD (offset + o) 0 with hx
    refine Cmp.bind (Q := fun _ s1 => s1.advice = s.advice ++
      [.trivial ((1 - b) * x), .trivial x, .trivial b, .trivial x]) ?_ fun _ s1 e1 h1 => ?_
    · refine region_cmpT (vs := [(1 - b) * x, x, b, x])
        (.cons rfl (.cons he2 (.cons hbit (.cons he2 .nil)))) ?_
      simp [GateL]; ring
    refine Cmp.bind (getM_con (i := s.advice.length) (x := (1 - b) * x) (by simp [h1]) (by simp [h1]))
      fun y s2 _ ⟨e2, hy⟩ => ?_
    subst e2
    have hlt := ho o (by simp)
    have hil := List.Forall₂.length_eq h
    refine Cmp.unwrap (a := e) (by rw [List.getElem?_append_left (by omega)]; exact he1) ?_
    refine Cmp.bind (mul_cmp (a := .existing e) (b := .existing bit) (he2.mono e1) (hbit.mono e1))
      fun z s3 e3 hz => ?_
    have hnew : AvsCon ext s3 (ind ++ [y] ++ [z]) (vals ++ [(1 - b) * x] ++ [b * x]) := by
      refine AvsCon.append (AvsCon.append (AvsCon.mono h (e1.trans e3)) (.cons (hy.mono e3) .nil)) (.cons ?_ .nil)
      rwa [mul_comm b x]
    refine (ih (hbit.mono (e1.trans e3)) hnew (by
      intro o' ho'
      have := ho o' (by simp [ho'])
      simp; omega)).weaken fun ind' s' h' => ?_
    convert h' using 1
    simp only [expandBit, List.map_cons, List.flatMap_cons, List.append_assoc, List.singleton_append,
      List.cons_append, List.nil_append]
    congr 3
    apply congrArg
    apply List.map_congr_left
    intro o' ho'
    have := ho o' (by simp [ho'])
    simp [List.getD_eq_getElem?_getD, List.getElem?_append_left this]

theorem map_range_getD (vals : List (ZMod p)) (offset n : ℕ) (h : offset + n ≤ vals.length) :
    (List.range n).map (fun o => vals.getD (offset + o) 0) = (vals.drop offset).take n := by
  apply List.ext_getElem?
  intro i
  by_cases hi : i < n
  · have : offset + i < vals.length := by omega
    simp [hi, List.getD_eq_getElem?_getD, List.getElem?_eq_getElem this]
  · simp [hi]

theorem indicatorOuter_cmp {bits : List (AV p)} {bs : List ℕ} {idx offset v : ℕ}
    {ind : List (AV p)} {vals : List (ZMod p)}
    (hb : AvsCon ext s bits (bs.map (fun b : ℕ => (b : ZMod p)))) (h2 : ∀ b ∈ bs, b < 2)
    (h : AvsCon ext s ind vals) (hl : vals.length = offset + 2 ^ idx)
    (hv : vals.drop offset = oneHot (2 ^ idx) v) :
    Cmp tbl ext s (indicatorOuter bits idx offset ind) (fun ind' s' => ∃ vals',
      AvsCon ext s' ind' vals' ∧
      vals'.drop (offset + 2 ^ (idx + bits.length) - 2 ^ idx)
        = oneHot (2 ^ (idx + bits.length)) (v * 2 ^ bs.length + Nat.ofDigits 2 bs.reverse)) := by
  induction bits generalizing s bs idx offset v ind vals with
  | nil =>
    have : bs = [] := by
      have := List.Forall₂.length_eq hb
      simpa using this.symm
    subst this
    exact Cmp.pure ⟨vals, h, by simpa using hv⟩
  | cons bit bits ih =>
    cases bs with
    | nil => cases hb
    | cons b bs =>
      cases hb with
      | cons hb1 hb2 =>
        refine Cmp.bind (indicatorInner_cmp hb1 h (by
          intro o ho; rw [hl]; simp at ho; omega)) fun ind1 s1 e1 h1 => ?_
        rw [map_range_getD _ _ _ (by omega), List.take_of_length_le (by simp [hl]), hv,
          expandBit_oneHot _ _ _ (h2 b (by simp))] at h1
        have e4 : 2 ^ (idx + 1) = 2 * 2 ^ idx := by rw [pow_succ]; ring
        refine (ih (v := 2 * v + b) (AvsCon.mono hb2 e1) (fun b' hb' => h2 b' (by simp [hb'])) h1
          (by rw [List.length_append, hl, oneHot_length, e4])
          (by rw [List.drop_append_of_le_length (by omega), List.drop_of_length_le (by omega),
                List.nil_append, e4])).weaken ?_
        rintro ind' s' ⟨vals', hv1, hv2⟩
        refine ⟨vals', hv1, ?_⟩
        have e3 : idx + 1 + bits.length = idx + (bit :: bits).length := by simp; omega
        rw [e3] at hv2
        have e5 : 2 ^ (idx + 1) ≤ 2 ^ (idx + (bit :: bits).length) :=
          Nat.pow_le_pow_right (by norm_num) (by simp)
        convert hv2 using 2
        · omega
        · rw [List.reverse_cons, Nat.ofDigits_append, Nat.ofDigits_singleton, List.length_cons,
            List.length_reverse]
          ring

theorem bitsToIndicator_cmp {bits : List (AV p)} {bs : List ℕ} (hne : bits ≠ [])
    (hb : AvsCon ext s bits (bs.map (fun b : ℕ => (b : ZMod p)))) (h2 : ∀ b ∈ bs, b < 2) :
    Cmp tbl ext s (bitsToIndicator bits) (fun rs s' =>
      AvsCon ext s' rs (oneHot (2 ^ bits.length) (Nat.ofDigits 2 bs))) := by
  unfold bitsToIndicator
  have hrevc : AvsCon ext s bits.reverse (bs.reverse.map (fun b : ℕ => (b : ZMod p))) := by
    rw [List.map_reverse]; exact List.rel_reverse hb
  have hlen : bits.length = bs.length := by simpa using List.Forall₂.length_eq hb
  split
  · rename_i h; simp at h; exact absurd h hne
  · rename_i last rest hrev
    rw [hrev] at hrevc
    cases hbr : bs.reverse with
    | nil => rw [hbr] at hrevc; cases hrevc
    | cons bl bt =>
      rw [hbr] at hrevc
      cases hrevc with
      | cons hl1 hl2 =>
        refine Cmp.unwrap hl1.val ?_
        refine Cmp.bind (Q := fun _ s1 => s1.advice = s.advice ++
          [.trivial (1 - (bl : ZMod p)), .trivial (bl : ZMod p), .trivial 1, .trivial 1]) ?_
          fun _ s1 e1 h1 => ?_
        · refine region_cmpT (vs := [1 - (bl : ZMod p), bl, 1, 1])
            (qs := [.witness (1 - (bl : ZMod p)), .existing last, .constant 1, .constant 1])
            (.cons rfl (.cons hl1 (.cons rfl (.cons rfl .nil)))) ?_
          simp [GateL]
        refine Cmp.bind (getM_con (i := s.advice.length) (x := 1 - (bl : ZMod p)) (by simp [h1])
          (by simp [h1])) fun inv s2 _ ⟨e2, hinv⟩ => ?_
        subst e2
        refine Cmp.bind (getM_con (i := s.advice.length + 1) (x := (bl : ZMod p))
          (by simp [h1]; omega) (by simp [h1])) fun lb s2 _ ⟨e2, hlb⟩ => ?_
        subst e2
        have hbl2 : bl < 2 := h2 bl (by
          have : bl ∈ bs.reverse := by rw [hbr]; simp
          simpa using this)
        refine Cmp.bind (indicatorOuter_cmp (v := bl) (AvsCon.mono hl2 e1) (by
          intro b hb'
          have : b ∈ bs.reverse := by rw [hbr]; simp [hb']
          exact h2 b (by simpa using this)) (.cons hinv (.cons hlb .nil)) (by simp) (by
          simp only [List.drop_zero, pow_one, oneHot]
          interval_cases bl <;> simp [List.range_succ])) fun ind s3 _ ⟨vals, hv1, hv2⟩ => Cmp.pure ?_
        have e6 : 1 + rest.length = bits.length := by
          have := congrArg List.length hrev
          simp at this; omega
        simp only [zero_add, e6, pow_one] at hv2
        rw [show bs = bt.reverse ++ [bl] by rw [← List.reverse_reverse bs, hbr, List.reverse_cons],
          Nat.ofDigits_append, Nat.ofDigits_singleton, List.length_reverse]
        rw [Nat.add_comm, mul_comm (2 ^ bt.length), ← hv2]
        exact List.forall₂_drop _ hv1

theorem idxToIndicatorLoop_cmp {idx : AV p} {x : ZMod p} {is : List ℕ} (h : Con ext s idx x) :
    Cmp tbl ext s (idxToIndicatorLoop idx is) (fun rs s' =>
      AvsCon ext s' rs (is.map (fun i : ℕ => if x = (i : ZMod p) then 1 else 0))) := by
  induction is generalizing s with
  | nil => exact Cmp.pure .nil
  | cons i is ih =>
    refine Cmp.bind (isEqual_cmp (a := .existing idx) (b := .constant (i : ZMod p)) h rfl) fun r s1 e1 hr => ?_
    refine Cmp.bind (ih (h.mono e1)) fun rest s2 e2 hrest => Cmp.pure ?_
    exact .cons (hr.mono e2) hrest

theorem idxToIndicator_cmp {idx : QCell p} {x : ZMod p} {len : ℕ} (h : QCon ext s idx x) :
    Cmp tbl ext s (idxToIndicator idx len) (fun rs s' =>
      AvsCon ext s' rs ((List.range len).map (fun i : ℕ => if x = (i : ZMod p) then 1 else 0))) := by
  cases len with
  | zero => exact Cmp.pure .nil
  | succ n =>
    unfold idxToIndicator
    refine Cmp.unwrap h.val ?_
    obtain ⟨k1, k2, k3⟩ := isZeroWitness_eval x
    refine Cmp.bind (Q := fun _ s1 => s1.advice = s.advice ++
      [.trivial (isZeroWitness x).1, .trivial x, (isZeroWitness x).2, .trivial 1, .trivial 0,
        .trivial x, .trivial (isZeroWitness x).1, .trivial 0]) ?_ fun _ s1 e1 h1 => ?_
    · have := assignRegionSmart_cmp (tbl := tbl) (ext := ext) (s := s)
        (qs := [.witness (isZeroWitness x).1, idx, .witnessFraction (isZeroWitness x).2, .constant 1,
          .constant 0, idx, .witness (isZeroWitness x).1, .constant 0]) (gs := [0, 4])
        (eo := [(0, 6), (1, 5)])
        [(isZeroWitness x).1, x, (isZeroWitness x).2.eval, 1, 0, x, (isZeroWitness x).1, 0]
        (.cons rfl (.cons h.qConF (.cons rfl (.cons rfl (.cons rfl (.cons h.qConF (.cons rfl
          (.cons rfl .nil)))))))) (by
          have := mul_eq_zero.1 k3
          simp [GateL, k2, this]) (by simp)
      refine this.weaken fun _ s' hs => ?_
      rw [hs]
      simp [h.assigned]
      simp [QCell.assigned]
    refine Cmp.bind (getM_con (i := s.advice.length + 5) (x := x) (by simp [h1]; omega)
      (by simp [h1])) fun idx' s2 _ ⟨e2, hidx⟩ => ?_
    subst e2
    refine Cmp.bind (getM_con (i := s.advice.length + 6) (x := (isZeroWitness x).1) (by simp [h1]; omega)
      (by simp [h1])) fun r s2 _ ⟨e2, hr⟩ => ?_
    subst e2
    refine Cmp.bind (idxToIndicatorLoop_cmp hidx) fun rest s3 e3 hrest => Cmp.pure ?_
    rw [List.range_succ_eq_map, List.map_cons]
    rw [k1] at hr
    refine .cons ?_ ?_
    · simpa using hr.mono e3
    · rw [List.map_map] at hrest ⊢
      exact hrest

/-- Values written by `select_by_indicator` on a 0/1 vector with at most one 1. -/
theorem selBody_pure {l : List (QCell p × AV p)} {zs : List (ZMod p × ZMod p)}
    (h : List.Forall₂ (fun ab xy => QCon ext s ab.1 xy.1 ∧ Con ext s ab.2 xy.2) l zs) (v : ZMod p)
    (h01 : ∀ z ∈ zs, z.2 = 0 ∨ z.2 = 1)
    (hpair : zs.Pairwise (fun y z => y.2 = 0 ∨ z.2 = 0)) (hv : v = 0 ∨ ∀ z ∈ zs, z.2 = 0) :
    ∃ cells, (selBody v l : M p _) = pure cells ∧ QsConT ext s cells (chainVals v zs) := by
  induction h generalizing v with
  | nil => exact ⟨[], rfl, .nil⟩
  | @cons ab xy l zs h1 _ ih =>
    obtain ⟨a, b⟩ := ab
    obtain ⟨x, y⟩ := xy
    have hp := List.pairwise_cons.1 hpair
    have hy := h01 (x, y) (by simp)
    simp only at hy h1
    have hstep : (selStep v y a : M p _) = pure (v + x * y) := by
      unfold selStep
      split
      · rename_i h0; simp [h0]
      · rename_i h0
        rcases hy with hy | hy
        · exact absurd hy h0
        · have : v = 0 := by
            rcases hv with hv | hv
            · exact hv
            · exact absurd (hv (x, y) (by simp)) h0
          rw [h1.1.val, this, hy]; simp; rfl
    obtain ⟨cells, hc, hv'⟩ := ih (v + x * y) (fun z hz => h01 z (by simp [hz])) hp.2 (by
      rcases hy with hy | hy
      · rw [hy, mul_zero, add_zero]
        rcases hv with hv | hv
        · exact Or.inl hv
        · exact Or.inr fun z hz => hv z (by simp [hz])
      · right
        intro z hz
        rcases hp.1 z hz with h | h
        · simp only at h; rw [h] at hy; exact absurd hy zero_ne_one
        · exact h)
    refine ⟨a :: .existing b :: .witness (v + x * y) :: cells, ?_, .cons h1.1 (.cons h1.2 (.cons rfl hv'))⟩
    have e2 : (unwrap b.val? : M p _) = pure y := by rw [h1.2.val]; rfl
    simp only [selBody, e2, pure_bind, hstep, hc]

/-- A 0/1 vector with at most one 1. -/
def AtMostOneHot (ys : List (ZMod p)) : Prop :=
  (∀ y ∈ ys, y = 0 ∨ y = 1) ∧ ys.Pairwise (fun y z => y = 0 ∨ z = 0)

theorem selectByIndicator_cmp {a : List (QCell p)} {ind : List (AV p)} {xs ys : List (ZMod p)}
    (ha : QsConT ext s a xs) (hi : AvsCon ext s ind ys) (hlen : a.length = ind.length)
    (hoh : AtMostOneHot ys) :
    Cmp tbl ext s (selectByIndicator a ind) (fun r s' => Con ext s' r (dot xs ys)) := by
  have hil := List.Forall₂.length_eq hi
  have hz : List.Forall₂ (fun (ab : QCell p × AV p) (xy : ZMod p × ZMod p) =>
      QCon ext s ab.1 xy.1 ∧ Con ext s ab.2 xy.2) (a.zip ind) (xs.zip ys) := by
    clear hoh hlen hil
    induction ha generalizing ind ys with
    | nil => simp
    | cons h1 _ ih =>
      cases hi with
      | nil => exact .nil
      | cons h2 h3 => exact .cons ⟨h1, h2⟩ (ih h3)
  have hxl : xs.length = ys.length := by rw [← ha.length, hlen, hil]
  have hsnd : (xs.zip ys).map Prod.snd = ys := by
    rw [zip_snd, List.take_of_length_le (by omega)]
  obtain ⟨cells, hc, hv⟩ := selBody_pure hz 0 (by
    intro z hz
    exact hoh.1 _ (by rw [← hsnd]; exact List.mem_map_of_mem hz)) (by
    have := hoh.2
    rw [← hsnd, List.pairwise_map] at this
    exact this) (Or.inl rfl)
  unfold selectByIndicator
  rw [hc, pure_bind]
  refine regionLast_cmpT (.cons rfl hv) ?_ ?_
  · have := chainVals_gate 0 (xs.zip ys)
    rwa [List.length_zip, ← hxl, Nat.min_self, ← ha.length] at this
  · rw [chainVals_last, zero_add, dot_zip]

theorem natCast_inj_of_lt {a b : ℕ} (ha : a < p) (hb : b < p) (h : (a : ZMod p) = (b : ZMod p)) : a = b := by
  have := congrArg ZMod.val h
  rwa [ZMod.val_natCast_of_lt ha, ZMod.val_natCast_of_lt hb] at this

theorem indicator_atMostOneHot {x : ZMod p} {n : ℕ} (hn : n ≤ p) :
    AtMostOneHot ((List.range n).map (fun i : ℕ => if x = (i : ZMod p) then (1 : ZMod p) else 0)) := by
  constructor
  · intro y hy
    simp only [List.mem_map] at hy
    obtain ⟨i, _, rfl⟩ := hy
    split <;> simp
  · rw [List.pairwise_map]
    refine List.Pairwise.imp_of_mem ?_ (List.nodup_range (n := n))
    intro i j hi hj hij
    by_cases h : x = (i : ZMod p)
    · right
      rw [if_neg]
      intro h'
      simp at hi hj
      exact hij (natCast_inj_of_lt (by omega) (by omega) (h.symm.trans h'))
    · left; rw [if_neg h]

theorem selectFromIdx_cmp {cells : List (QCell p)} {idx : QCell p} {x : ZMod p} {xs : List (ZMod p)}
    (hx : QCon ext s idx x) (hc : QsConT ext s cells xs) (hn : cells.length ≤ p) :
    Cmp tbl ext s (selectFromIdx cells idx) (fun r s' => Con ext s' r
      (dot xs ((List.range cells.length).map (fun i : ℕ => if x = (i : ZMod p) then 1 else 0)))) := by
  refine Cmp.bind (idxToIndicator_cmp (len := cells.length) hx) fun ind s1 e1 hi => ?_
  refine selectByIndicator_cmp (hc.mono e1) hi ?_ (indicator_atMostOneHot hn)
  have := List.Forall₂.length_eq hi
  simpa using this.symm

theorem column_pure {arr : List (List (AV p))} {vals : List (List (ZMod p))} {j : ℕ}
    (h : List.Forall₂ (AvsCon ext s) arr vals) (hj : ∀ v ∈ vals, j < v.length) :
    ∃ c, (column arr j : M p _) = pure c ∧ QsConT ext s c (vals.map (fun v => v.getD j 0)) := by
  induction h with
  | nil => exact ⟨[], rfl, .nil⟩
  | @cons r v arr vals h1 _ ih =>
    obtain ⟨c, hc, hq⟩ := ih fun v hv => hj v (by simp [hv])
    obtain ⟨a, ha1, ha2⟩ := h1.get (hj v (by simp))
    refine ⟨.existing a :: c, ?_, .cons ha2 hq⟩
    have e1 : (unwrap r[j]? : M p _) = pure a := by rw [ha1]; rfl
    simp only [column, e1, hc, pure_bind]

theorem selectArrayLoop_cmp {arr : List (List (AV p))} {ind : List (AV p)}
    {vals : List (List (ZMod p))} {ys : List (ZMod p)} {js : List ℕ}
    (h : List.Forall₂ (AvsCon ext s) arr vals) (hi : AvsCon ext s ind ys)
    (hlen : arr.length = ind.length) (hoh : AtMostOneHot ys)
    (hj : ∀ j ∈ js, ∀ v ∈ vals, j < v.length) :
    Cmp tbl ext s (selectArrayLoop arr ind js) (fun rs s' => AvsCon ext s' rs
      (js.map (fun j => dot (vals.map (fun v => v.getD j 0)) ys))) := by
  induction js generalizing s with
  | nil => exact Cmp.pure .nil
  | cons j js ih =>
    obtain ⟨c, hc, hq⟩ := column_pure h (hj j (by simp))
    unfold selectArrayLoop
    rw [hc, pure_bind]
    have hl : c.length = ind.length := by
      rw [hq.length, List.length_map, ← List.Forall₂.length_eq h, hlen]
    refine Cmp.bind (selectByIndicator_cmp hq hi hl hoh) fun r s1 e1 hr => ?_
    refine Cmp.bind (ih (List.Forall₂.imp (fun _ _ k => AvsCon.mono k e1) h) (hi.mono e1)
      (fun j hj' => hj j (by simp [hj']))) fun rest s2 e2 hrest => Cmp.pure ?_
    exact .cons (hr.mono e2) hrest

theorem selectArrayByIndicator_cmp {arr : List (List (AV p))} {ind : List (AV p)}
    {vals : List (List (ZMod p))} {ys : List (ZMod p)} {n : ℕ} (hne : arr ≠ [])
    (h : List.Forall₂ (AvsCon ext s) arr vals) (hi : AvsCon ext s ind ys)
    (hlen : arr.length = ind.length) (hoh : AtMostOneHot ys) (hn : ∀ v ∈ vals, v.length = n) :
    Cmp tbl ext s (selectArrayByIndicator arr ind) (fun rs s' => AvsCon ext s' rs
      ((List.range n).map (fun j => dot (vals.map (fun v => v.getD j 0)) ys))) := by
  cases h with
  | nil => exact absurd rfl hne
  | @cons r v arr vals h1 h2 =>
    have hr : r.length = n := by rw [List.Forall₂.length_eq h1]; exact hn v (by simp)
    unfold selectArrayByIndicator
    simp only [hr]
    refine selectArrayLoop_cmp (.cons h1 h2) hi hlen hoh ?_
    intro j hj v' hv'
    rw [hn v' hv']
    simpa using hj

end H2
