import Verif.Fields.Laws
import Verif.Fields.Ext
import Mathlib.Algebra.Algebra.Basic

/-!
# The extension chips satisfy the field laws

An element of the extension is a linear combination of a basis `e` with coefficients in the base field.
-/

set_option autoImplicit false
set_option linter.unusedSectionVars false
namespace H2
variable {p : ℕ} [Fact p.Prime] {tbl : ZMod p → Prop}

/-! ### Loops -/

theorem mapList_sound {α β : Type} {f : α → M p β} {Q : (Cell → ZMod p) → α → β → Prop}
    (hf : ∀ a, Sound tbl (f a) (fun w r => Q w a r)) : ∀ as : List α,
    Sound tbl (mapList f as) (fun w rs => List.Forall₂ (Q w) as rs)
  | [] => fun _ => Snd.pure fun _ _ => .nil
  | a :: as => fun s => Snd.bind (hf a s) fun r s1 _ => Snd.bind (mapList_sound hf as s1) fun rs _ _ => Snd.pure fun _ _ h2 h1 =>
    .cons h1 h2

/-- `R` relates the elements of three lists of the same length. -/
inductive All3 {α β γ : Type} (R : α → β → γ → Prop) : List α → List β → List γ → Prop
  | nil : All3 R [] [] []
  | cons {a b c as bs cs} : R a b c → All3 R as bs cs → All3 R (a :: as) (b :: bs) (c :: cs)

theorem zipEqList_sound {α β γ : Type} {f : α → β → M p γ} {Q : (Cell → ZMod p) → α → β → γ → Prop}
    (hf : ∀ a b, Sound tbl (f a b) (fun w r => Q w a b r)) : ∀ (as : List α) (bs : List β),
    Sound tbl (zipEqList f as bs) (fun w rs => All3 (Q w) as bs rs)
  | [], [] => fun _ => Snd.pure fun _ _ => .nil
  | a :: as, b :: bs => fun s => Snd.bind (hf a b s) fun r s1 _ => Snd.bind (zipEqList_sound hf as bs s1) fun rs _ _ =>
    Snd.pure fun _ _ h2 h1 => .cons h1 h2
  | [], _ :: _ => fun _ => Snd.panic
  | _ :: _, [] => fun _ => Snd.panic

theorem forList_sound {α : Type} {f : α → M p Unit} {Q : (Cell → ZMod p) → α → Prop}
    (hf : ∀ a, Sound tbl (f a) (fun w _ => Q w a)) : ∀ as : List α,
    Sound tbl (forList f as) (fun w _ => ∀ a ∈ as, Q w a)
  | [] => fun _ => Snd.pure fun _ _ => by simp
  | a :: as => fun s => Snd.bind (hf a s) fun _ s1 _ => (forList_sound hf as s1).weaken fun _ _ _ h2 h1 => by
    intro x hx
    rcases List.mem_cons.1 hx with rfl | hx
    · exact h1
    · exact h2 x hx

theorem forZip_sound {α β : Type} {f : α → β → M p Unit} {Q : (Cell → ZMod p) → α → β → Prop}
    (hf : ∀ a b, Sound tbl (f a b) (fun w _ => Q w a b)) : ∀ (as : List α) (bs : List β),
    Sound tbl (forZip f as bs) (fun w _ => as.length = bs.length → List.Forall₂ (Q w) as bs)
  | [], [] => fun _ => Snd.pure fun _ _ _ => .nil
  | a :: as, b :: bs => fun s => Snd.bind (hf a b s) fun _ s1 _ => (forZip_sound hf as bs s1).weaken fun _ _ _ h2 h1 hl =>
    .cons h1 (h2 (by simpa using hl))
  | [], _ :: _ => fun _ => Snd.pure fun _ _ h => by simp at h
  | _ :: _, [] => fun _ => Snd.pure fun _ _ h => by simp at h

theorem foldGate_and_sound {α : Type} {f : α → M p (AV p)} {Q : (Cell → ZMod p) → α → ZMod p → Prop}
    (hf : ∀ a, Sound tbl (f a) (fun w r => Q w a (at' w r))) : ∀ (as : List α) (prev : AV p),
    Sound tbl (foldGate f and prev as) (fun w r => ∃ cs, List.Forall₂ (Q w) as cs ∧ at' w r = at' w prev * cs.prod)
  | [], prev => fun _ => Snd.pure fun _ _ => ⟨[], .nil, by simp⟩
  | a :: as, prev => fun s => Snd.bind (hf a s) fun c s1 _ => Snd.bind (and_ex c prev s1) fun q s2 _ =>
    (foldGate_and_sound hf as q s2).weaken fun w r _ h3 h2 h1 => by
      obtain ⟨cs, k1, k2⟩ := h3
      refine ⟨_ :: cs, .cons h1 k1, ?_⟩
      rw [k2, h2, List.prod_cons]
      ring

theorem foldGate1_and_sound {α : Type} {f : α → M p (AV p)} {Q : (Cell → ZMod p) → α → ZMod p → Prop}
    (hf : ∀ a, Sound tbl (f a) (fun w r => Q w a (at' w r))) : ∀ as : List α,
    Sound tbl (foldGate1 f and as) (fun w r => ∃ cs, List.Forall₂ (Q w) as cs ∧ at' w r = cs.prod)
  | [] => fun _ => Snd.panic
  | a :: as => fun s => Snd.bind (hf a s) fun c s1 _ => (foldGate_and_sound hf as c s1).weaken fun w r _ h2 h1 => by
    obtain ⟨cs, k1, k2⟩ := h2
    exact ⟨_ :: cs, .cons h1 k1, by rw [k2, List.prod_cons]⟩

theorem foldGate_or_sound {α : Type} {f : α → M p (AV p)} {Q : (Cell → ZMod p) → α → ZMod p → Prop}
    (hf : ∀ a, Sound tbl (f a) (fun w r => Q w a (at' w r))) : ∀ (as : List α) (prev : AV p),
    Sound tbl (foldGate f or prev as) (fun w r => ∃ cs, List.Forall₂ (Q w) as cs ∧
      1 - at' w r = (1 - at' w prev) * (cs.map (fun c => 1 - c)).prod)
  | [], prev => fun _ => Snd.pure fun _ _ => ⟨[], .nil, by simp⟩
  | a :: as, prev => fun s => Snd.bind (hf a s) fun c s1 _ => Snd.bind (or_ex c prev s1) fun q s2 _ =>
    (foldGate_or_sound hf as q s2).weaken fun w r _ h3 h2 h1 => by
      obtain ⟨cs, k1, k2⟩ := h3
      refine ⟨_ :: cs, .cons h1 k1, ?_⟩
      rw [k2, h2, List.map_cons, List.prod_cons]
      ring

theorem foldGate1_or_sound {α : Type} {f : α → M p (AV p)} {Q : (Cell → ZMod p) → α → ZMod p → Prop}
    (hf : ∀ a, Sound tbl (f a) (fun w r => Q w a (at' w r))) : ∀ as : List α,
    Sound tbl (foldGate1 f or as) (fun w r => ∃ cs, List.Forall₂ (Q w) as cs ∧ 1 - at' w r = (cs.map (fun c => 1 - c)).prod)
  | [] => fun _ => Snd.panic
  | a :: as => fun s => Snd.bind (hf a s) fun c s1 _ => (foldGate_or_sound hf as c s1).weaken fun w r _ h2 h1 => by
    obtain ⟨cs, k1, k2⟩ := h2
    exact ⟨_ :: cs, .cons h1 k1, by rw [k2, List.map_cons, List.prod_cons]⟩

theorem foldEq_sound {α : Type} {f : α → α → M p (AV p)} {Q : (Cell → ZMod p) → α → α → ZMod p → Prop}
    (hf : ∀ a b, Sound tbl (f a b) (fun w r => Q w a b (at' w r))) : ∀ (as bs : List α) (prev : AV p),
    Sound tbl (foldEq f prev as bs) (fun w r => ∃ cs, All3 (Q w) as bs cs ∧ at' w r = at' w prev * cs.prod)
  | [], [], prev => fun _ => Snd.pure fun _ _ => ⟨[], .nil, by simp⟩
  | a :: as, b :: bs, prev => fun s => Snd.bind (hf a b s) fun c s1 _ => Snd.bind (and_ex c prev s1) fun q s2 _ =>
    (foldEq_sound hf as bs q s2).weaken fun w r _ h3 h2 h1 => by
      obtain ⟨cs, k1, k2⟩ := h3
      refine ⟨_ :: cs, .cons h1 k1, ?_⟩
      rw [k2, h2, List.prod_cons]
      ring
  | [], _ :: _, _ => fun _ => Snd.panic
  | _ :: _, [], _ => fun _ => Snd.panic

theorem foldEq1_sound {α : Type} {f : α → α → M p (AV p)} {Q : (Cell → ZMod p) → α → α → ZMod p → Prop}
    (hf : ∀ a b, Sound tbl (f a b) (fun w r => Q w a b (at' w r))) : ∀ as bs : List α,
    Sound tbl (foldEq1 f as bs) (fun w r => ∃ cs, All3 (Q w) as bs cs ∧ at' w r = cs.prod)
  | a :: as, b :: bs => fun s => Snd.bind (hf a b s) fun c s1 _ => (foldEq_sound hf as bs c s1).weaken fun w r _ h2 h1 => by
    obtain ⟨cs, k1, k2⟩ := h2
    exact ⟨_ :: cs, .cons h1 k1, by rw [k2, List.prod_cons]⟩
  | [], [] => fun _ => Snd.panic
  | [], _ :: _ => fun _ => Snd.panic
  | _ :: _, [] => fun _ => Snd.panic

/-! ### Lists of representations -/

theorem All3.rep {α β γ A B C : Type} {Q : α → β → γ → Prop} {S : α → A → Prop} {T : β → B → Prop} {W : γ → C → Prop}
    {g : A → B → C} (hq : ∀ a b r x y, Q a b r → S a x → T b y → W r (g x y)) {as : List α} {bs : List β} {rs : List γ}
    (h : All3 Q as bs rs) : ∀ {xs : List A} {ys : List B}, List.Forall₂ S as xs → List.Forall₂ T bs ys →
    List.Forall₂ W rs (List.zipWith g xs ys) := by
  induction h with
  | nil =>
    intro xs ys h1 h2
    cases h1; cases h2
    exact .nil
  | cons h _ ih =>
    intro xs ys h1 h2
    cases h1 with
    | cons a1 a2 =>
      cases h2 with
      | cons b1 b2 => exact .cons (hq _ _ _ _ _ h a1 b1) (ih a2 b2)

theorem forall₂_rep {α β A B : Type} {Q : α → β → Prop} {S : α → A → Prop} {W : β → B → Prop} {g : A → B}
    (hq : ∀ a r x, Q a r → S a x → W r (g x)) {as : List α} {rs : List β} (h : List.Forall₂ Q as rs) :
    ∀ {xs : List A}, List.Forall₂ S as xs → List.Forall₂ W rs (xs.map g) := by
  induction h with
  | nil =>
    intro xs h1
    cases h1
    exact .nil
  | cons h _ ih =>
    intro xs h1
    cases h1 with
    | cons a1 a2 => exact .cons (hq _ _ _ h a1) (ih a2)

theorem All3.length {α β γ : Type} {Q : α → β → γ → Prop} {as : List α} {bs : List β} {rs : List γ} (h : All3 Q as bs rs) :
    as.length = rs.length ∧ bs.length = rs.length := by
  induction h with
  | nil => exact ⟨rfl, rfl⟩
  | cons _ _ ih => simp [ih]

/-- The product of bits is 1 iff all are. -/
theorem prod_bits {cs : List (ZMod p)} {xs : List Prop} (h : List.Forall₂ (fun c (x : Prop) => (c = 0 ∧ ¬ x) ∨ (c = 1 ∧ x)) cs xs) :
    (cs.prod = 1 ∧ ∀ x ∈ xs, x) ∨ (cs.prod = 0 ∧ ¬ ∀ x ∈ xs, x) := by
  induction h with
  | nil => left; simp
  | cons h _ ih =>
    rcases h with ⟨rfl, h⟩ | ⟨rfl, h⟩
    · right
      exact ⟨by simp, fun hh => h (hh _ (by simp))⟩
    · rcases ih with ⟨i1, i2⟩ | ⟨i1, i2⟩
      · left
        refine ⟨by simp [i1], ?_⟩
        intro x hx
        rcases List.mem_cons.1 hx with rfl | hx
        · exact h
        · exact i2 x hx
      · right
        exact ⟨by simp [i1], fun hh => i2 fun x hx => hh x (by simp [hx])⟩

/-! ### The extension -/

section
variable {K : Type} [Field K] [DecidableEq K] {K2 : Type} [Field K2] [DecidableEq K2] [Algebra K K2]

/-- The linear combination of `e` with coefficients `xs`. -/
def lin (e : List K2) (xs : List K) : K2 := (List.zipWith (fun x b => algebraMap K K2 x * b) xs e).sum

theorem lin_cons (b : K2) (e : List K2) (x : K) (xs : List K) : lin (b :: e) (x :: xs) = algebraMap K K2 x * b + lin e xs := by
  simp [lin]

theorem lin_nil (xs : List K) : lin ([] : List K2) xs = 0 := by simp [lin]

theorem lin_nil' (e : List K2) : lin e ([] : List K) = 0 := by simp [lin]

theorem lin_zipWith (f : K → K → K) (g : K2 → K2 → K2) (h0 : g 0 0 = 0)
    (h : ∀ (x y : K) (b u v : K2), algebraMap K K2 (f x y) * b + g u v = g (algebraMap K K2 x * b + u) (algebraMap K K2 y * b + v)) :
    ∀ (e : List K2) (xs ys : List K), xs.length = ys.length → lin e (List.zipWith f xs ys) = g (lin e xs) (lin e ys)
  | [], xs, ys, _ => by simp [lin_nil, h0]
  | b :: e, [], [], _ => by simp [lin_nil', h0]
  | b :: e, x :: xs, y :: ys, hl => by
    rw [List.zipWith_cons_cons, lin_cons, lin_cons, lin_cons, lin_zipWith f g h0 h e xs ys (by simpa using hl), h]
  | _ :: _, [], _ :: _, h => by simp at h
  | _ :: _, _ :: _, [], h => by simp at h

theorem lin_map (f : K → K) (g : K2 → K2) (h0 : g 0 = 0)
    (h : ∀ (x : K) (b u : K2), algebraMap K K2 (f x) * b + g u = g (algebraMap K K2 x * b + u)) :
    ∀ (e : List K2) (xs : List K), lin e (xs.map f) = g (lin e xs)
  | [], xs => by simp [lin_nil, h0]
  | b :: e, [] => by simp [lin_nil', h0]
  | b :: e, x :: xs => by rw [List.map_cons, lin_cons, lin_cons, lin_map f g h0 h e xs, h]

theorem lin_zero (e : List K2) : ∀ (xs : List K), (∀ x ∈ xs, x = 0) → lin e xs = 0 := by
  induction e with
  | nil => intro xs _; exact lin_nil _
  | cons b e ih =>
    intro xs h
    cases xs with
    | nil => exact lin_nil' _
    | cons x xs => rw [lin_cons, ih xs fun y hy => h y (by simp [hy]), h x (by simp)]; simp

/-- A list of elements of `K2` which are linearly independent over `K`. -/
structure ExtBasis (K K2 : Type) [Field K] [Field K2] [Algebra K K2] where
  e : List K2
  pos : e ≠ []
  indep : ∀ xs ys : List K, xs.length = e.length → ys.length = e.length → lin e xs = lin e ys → xs = ys

theorem ExtBasis.lin_eq_zero (B : ExtBasis K K2) {xs : List K} (h : xs.length = B.e.length) :
    lin B.e xs = 0 ↔ ∀ x ∈ xs, x = 0 := by
  constructor
  · intro h0
    have := B.indep xs (List.replicate B.e.length 0) h (by simp) (by rw [h0, lin_zero]; simp)
    rw [this]
    simp
  · exact lin_zero _ _

variable {F : FieldOps p} (l : FieldLaws F K tbl) (B : ExtBasis K K2)

/-- A vector of points represents the combination of the represented elements. -/
def vecRep {α : Type} (e : List K2) (R : α → K → Prop) (as : List α) (X : K2) : Prop :=
  ∃ xs : List K, xs.length = e.length ∧ List.Forall₂ R as xs ∧ X = lin e xs

/-- A vector of unreduced points represents the combination of the represented elements; its size is the list of sizes. -/
def vecURep (e : List K2) (w : Cell → ZMod p) (as : List F.U) (X : K2) (ss : List l.Sz) : Prop :=
  ∃ qs : List (K × l.Sz), qs.length = e.length ∧ List.Forall₂ (fun a q => l.URep w a q.1 q.2) as qs ∧ X = lin e (qs.map Prod.fst) ∧
    ss = qs.map Prod.snd

/-- The law of `mul_no_carry` for an extension. -/
def ExtMul (mulNC : List F.U → List F.U → M p (List F.U)) (mulSz : List l.Sz → List l.Sz → List l.Sz) : Prop :=
  ∀ a b, Sound tbl (mulNC a b) (fun w r => ∀ X Y sx sy, vecURep l B.e w a X sx → vecURep l B.e w b Y sy →
    vecURep l B.e w r (X * Y) (mulSz sx sy))

theorem vecURep.zip {w : Cell → ZMod p} {e : List K2} {as bs rs : List F.U} {X Y : K2} {sx sy : List l.Sz} {f : K → K → K}
    {h : l.Sz → l.Sz → l.Sz} {g : K2 → K2 → K2} (h0 : g 0 0 = 0)
    (hg : ∀ (x y : K) (b u v : K2), algebraMap K K2 (f x y) * b + g u v = g (algebraMap K K2 x * b + u) (algebraMap K K2 y * b + v))
    (hall : All3 (fun a b r => ∀ X Y sx sy, l.URep w a X sx → l.URep w b Y sy → l.URep w r (f X Y) (h sx sy)) as bs rs)
    (hX : vecURep l e w as X sx) (hY : vecURep l e w bs Y sy) : vecURep l e w rs (g X Y) (List.zipWith h sx sy) := by
  obtain ⟨qs, q1, q2, rfl, rfl⟩ := hX
  obtain ⟨ts, t1, t2, rfl, rfl⟩ := hY
  refine ⟨List.zipWith (fun q t => (f q.1 t.1, h q.2 t.2)) qs ts, by simp [q1, t1], ?_, ?_, ?_⟩
  · exact All3.rep (fun a b r x y hq hs ht => hq _ _ _ _ hs ht) hall q2 t2
  · rw [List.map_zipWith, ← List.zipWith_map, lin_zipWith f g h0 hg _ _ _ (by simp [q1, t1])]
  · rw [List.map_zipWith, List.zipWith_map]

theorem vecURep.map {w : Cell → ZMod p} {e : List K2} {as rs : List F.U} {X : K2} {sx : List l.Sz} {f : K → K}
    {h : l.Sz → l.Sz} {g : K2 → K2} (h0 : g 0 = 0)
    (hg : ∀ (x : K) (b u : K2), algebraMap K K2 (f x) * b + g u = g (algebraMap K K2 x * b + u))
    (hall : List.Forall₂ (fun a r => ∀ X sx, l.URep w a X sx → l.URep w r (f X) (h sx)) as rs)
    (hX : vecURep l e w as X sx) : vecURep l e w rs (g X) (sx.map h) := by
  obtain ⟨qs, q1, q2, rfl, rfl⟩ := hX
  refine ⟨qs.map (fun q => (f q.1, h q.2)), by simp [q1], ?_, ?_, ?_⟩
  · exact forall₂_rep (fun a r x hq hs => hq _ _ hs) hall q2
  · rw [List.map_map, ← lin_map f g h0 hg, List.map_map]
    rfl
  · rw [List.map_map, List.map_map]
    rfl

theorem vecRep.map {α β : Type} {e : List K2} {R : α → K → Prop} {S : β → K → Prop} {as : List α} {rs : List β} {X : K2} {f : K → K}
    {g : K2 → K2} (h0 : g 0 = 0)
    (hg : ∀ (x : K) (b u : K2), algebraMap K K2 (f x) * b + g u = g (algebraMap K K2 x * b + u))
    (hall : List.Forall₂ (fun a r => ∀ X, R a X → S r (f X)) as rs)
    (hX : vecRep e R as X) : vecRep e S rs (g X) := by
  obtain ⟨xs, q1, q2, rfl⟩ := hX
  refine ⟨xs.map f, by simp [q1], ?_, ?_⟩
  · exact forall₂_rep (fun a r x hq hs => hq _ hs) hall q2
  · rw [← lin_map f g h0 hg]

theorem vecRep.imp {α : Type} {e : List K2} {R S : α → K → Prop} (h : ∀ a x, R a x → S a x) {as : List α} {X : K2}
    (hX : vecRep e R as X) : vecRep e S as X := by
  obtain ⟨xs, h1, h2, h3⟩ := hX
  exact ⟨xs, h1, h2.imp fun a x hx => h a x hx, h3⟩

theorem forall₂_unique {α β : Type} {R S : α → β → Prop} (h : ∀ a x y, R a x → S a y → x = y) {as : List α} :
    ∀ {xs ys : List β}, List.Forall₂ R as xs → List.Forall₂ S as ys → xs = ys := by
  induction as with
  | nil =>
    intro xs ys h1 h2
    cases h1; cases h2; rfl
  | cons a as ih =>
    intro xs ys h1 h2
    cases h1 with
    | cons a1 a2 =>
      cases h2 with
      | cons b1 b2 => rw [h _ _ _ a1 b1, ih a2 b2]

theorem All3.sel {α : Type} {R : α → K → Prop} {s : Prop} {f : Bool} {as bs rs : List α} {xs ys : List K} (hs : s)
    (hall : All3 (fun a b r => ∀ X Y, R a X → R b Y → s → R r (if f then X else Y)) as bs rs)
    (h1 : List.Forall₂ R as xs) (h2 : List.Forall₂ R bs ys) : List.Forall₂ R rs (if f then xs else ys) := by
  induction hall generalizing xs ys with
  | nil =>
    cases h1; cases h2
    cases f <;> exact .nil
  | cons h _ ih =>
    cases h1 with
    | cons a1 a2 =>
      cases h2 with
      | cons b1 b2 =>
        have i1 := ih a2 b2
        have i2 := h _ _ a1 b1 hs
        cases f <;> exact .cons i2 i1

theorem All3.imp {α β γ : Type} {Q R : α → β → γ → Prop} (h : ∀ a b c, Q a b c → R a b c) {as : List α} {bs : List β} {cs : List γ}
    (hall : All3 Q as bs cs) : All3 R as bs cs := by
  induction hall with
  | nil => exact .nil
  | cons h1 _ ih => exact .cons (h _ _ _ h1) ih

theorem forall₂_map_prop {α β : Type} {R : α → β → Prop} {P : β → Prop} {as : List α} {xs : List β} {cs : List (ZMod p)}
    {Q : α → ZMod p → Prop} (hq : ∀ a x c, R a x → Q a c → (c = 0 ∧ ¬ P x) ∨ (c = 1 ∧ P x))
    (h1 : List.Forall₂ Q as cs) (h2 : List.Forall₂ R as xs) :
    List.Forall₂ (fun c (x : Prop) => (c = 0 ∧ ¬ x) ∨ (c = 1 ∧ x)) cs (xs.map P) := by
  induction h1 generalizing xs with
  | nil => cases h2; exact .nil
  | cons h _ ih =>
    cases h2 with
    | cons b1 b2 => exact .cons (hq _ _ _ b1 h) (ih b2)

/-- The extension chip satisfies the field laws, given the law of its multiplication. -/
def vecLaws (E : ExtField F) (d : ℕ) (hd : B.e.length = d) (hE : ∀ v, (E.coeffs v).length = d) (hz : ∀ v ∈ E.coeffs E.vzero, l.val v = 0)
    (mulNC : List F.U → List F.U → M p (List F.U)) (mulSz : List l.Sz → List l.Sz → List l.Sz) (hmul : ExtMul l B mulNC mulSz) :
    FieldLaws (vecOps F E (extGetAssignedValue F E d) mulNC) K2 tbl where
  Sz := List l.Sz
  URep := vecURep l B.e
  PRep := fun w => vecRep B.e (l.PRep w)
  RRep := fun w => vecRep B.e (l.RRep w)
  val := fun v => lin B.e ((E.coeffs v).map l.val)
  pSz := List.replicate d l.pSz
  addSz := List.zipWith l.addSz
  addcSz := List.map l.addcSz
  subSz := List.zipWith l.subSz
  mulSz := mulSz
  smulSz := fun z => List.map (l.smulSz z)
  smulAddSz := fun z => List.zipWith (l.smulAddSz z)
  carryFits := fun ss => ∀ s ∈ ss, l.carryFits s
  zeroFits := fun ss => ∀ s ∈ ss, l.zeroFits s
  r_p := fun w a X h => h.imp fun a x hx => l.r_p _ _ _ hx
  p_u := by
    rintro w (a : List F.P) X ⟨xs, h1, h2, rfl⟩
    refine ⟨xs.map fun x => (x, l.pSz), by simp [h1], ?_, ?_, ?_⟩
    · change List.Forall₂ _ (a.map F.ofP) _
      rw [List.forall₂_map_left_iff, List.forall₂_map_right_iff]
      exact h2.imp fun a x hx => l.p_u _ _ _ hx
    · rw [List.map_map]
      simp [Function.comp_def]
    · rw [List.map_map, ← hd, ← h1]
      simp [Function.comp_def, List.map_const']
  p_unique := by
    rintro w a X Y ⟨xs, -, h2, rfl⟩ ⟨ys, -, h4, rfl⟩
    rw [forall₂_unique (fun a x y => l.p_unique w a x y) h2 h4]
  getAssignedValue := fun a s => by
    refine Snd.assert fun _ => Snd.bind (mapList_sound (Q := fun _ _ _ => True) (fun a => l.getAssignedValue a) a s) fun _ _ _ =>
      Snd.pure fun _ _ _ => trivial
  loadPrivate := fun (v : E.V) s => by
    refine (mapList_sound l.loadPrivate (E.coeffs v) s).weaken ?_
    intro w r _ h
    obtain ⟨xs, hx⟩ : ∃ xs : List K, List.Forall₂ (l.PRep w) r xs := by
      generalize E.coeffs v = vs at h
      clear * - h
      induction h with
      | nil => exact ⟨[], .nil⟩
      | cons h _ ih =>
        obtain ⟨X, hX⟩ := h
        obtain ⟨xs, hxs⟩ := ih
        exact ⟨X :: xs, .cons hX hxs⟩
    exact ⟨lin B.e xs, xs, by rw [← hx.length_eq, ← h.length_eq, hE, hd], hx, rfl⟩
  loadConstant := fun (v : E.V) s => by
    refine (mapList_sound l.loadConstant (E.coeffs v) s).weaken ?_
    intro w r _ h
    refine ⟨(E.coeffs v).map l.val, by rw [List.length_map, hE, hd], ?_, rfl⟩
    rw [List.forall₂_map_right_iff]
    exact h.flip
  addNoCarry := fun a b s => (zipEqList_sound l.addNoCarry a b s).weaken fun w r _ h X Y sx sy hX hY =>
    vecURep.zip l (by simp) (by intro x y b u v; rw [map_add]; ring) h hX hY
  addConstantNoCarry := fun a (v : E.V) s => by
    refine (zipEqList_sound l.addConstantNoCarry a (E.coeffs v) s).weaken ?_
    rintro w r _ h X sx ⟨qs, q1, q2, rfl, rfl⟩
    refine ⟨List.zipWith (fun q y => (q.1 + y, l.addcSz q.2)) qs ((E.coeffs v).map l.val), by simp [q1, hE, hd], ?_, ?_, ?_⟩
    · exact All3.rep (T := fun v y => y = l.val v) (fun a b r x y hq hs ht => by rw [ht]; exact hq _ _ hs) h q2 (by
        rw [List.forall₂_map_right_iff, List.forall₂_same]
        exact fun _ _ => rfl)
    · rw [List.map_zipWith]
      have := lin_zipWith (K := K) (K2 := K2) (· + ·) (· + ·) (by simp) (by intro x y b u v; rw [map_add]; ring) B.e
        (qs.map Prod.fst) ((E.coeffs v).map l.val) (by simp [q1, hE, hd])
      rw [← this, List.zipWith_map_left]
    · have hl : qs.length = ((E.coeffs v).map l.val).length := by simp [q1, hE, hd]
      generalize (E.coeffs v).map l.val = ys at hl
      clear * - hl
      induction qs generalizing ys with
      | nil => simp
      | cons q qs ih =>
        cases ys with
        | nil => simp at hl
        | cons y ys => simp at hl; simp [← ih ys hl]
  subNoCarry := fun a b s => (zipEqList_sound l.subNoCarry a b s).weaken fun w r _ h X Y sx sy hX hY =>
    vecURep.zip l (by simp) (by intro x y b u v; rw [map_sub]; ring) h hX hY
  negate := fun a s => (mapList_sound l.negate a s).weaken fun w r _ h X hX =>
    vecRep.map (f := fun x => -x) (by simp) (by intro x b u; rw [map_neg]; ring) h hX
  scalarMulNoCarry := fun a c s => (mapList_sound (fun a => l.scalarMulNoCarry a c) a s).weaken fun w r _ h X sx hX =>
    vecURep.map l (f := fun x => x * (c : K)) (g := fun x => x * (c : K2)) (by simp)
      (by intro x b u; rw [map_mul, map_intCast]; ring) h hX
  scalarMulAddNoCarry := fun a b c s => (zipEqList_sound (fun a b => l.scalarMulAddNoCarry a b c) a b s).weaken
    fun w r _ h X Y sx sy hX hY => vecURep.zip l (f := fun x y => x * (c : K) + y) (g := fun x y => x * (c : K2) + y) (by simp)
      (by intro x y b u v; rw [map_add, map_mul, map_intCast]; ring) h hX hY
  mulNoCarry := hmul
  checkCarryModToZero := fun a s => by
    refine (forList_sound l.checkCarryModToZero a s).weaken ?_
    rintro w _ _ h X sx hf ⟨qs, q1, q2, rfl, rfl⟩
    refine lin_zero _ _ fun x hx => ?_
    clear q1
    induction q2 with
    | nil => simp at hx
    | cons h1 _ ih =>
      rw [List.map_cons, List.mem_cons] at hx
      rcases hx with rfl | hx
      · exact h _ (by simp) _ _ (hf _ (by simp)) h1
      · exact ih (fun a ha => h a (by simp [ha])) (fun s hs => hf s (by rw [List.map_cons]; simp [hs])) hx
  carryMod := fun a s => by
    refine (mapList_sound l.carryMod a s).weaken ?_
    rintro w r _ h X sx hf ⟨qs, q1, q2, rfl, rfl⟩
    refine ⟨qs.map Prod.fst, by simp [q1], ?_, rfl⟩
    clear q1
    induction q2 generalizing r with
    | nil => cases h; exact .nil
    | cons h1 _ ih =>
      cases h with
      | cons k1 k2 =>
        exact .cons (k1 _ _ (hf _ (by simp)) h1) (ih _ k2 fun s hs => hf s (by rw [List.map_cons]; exact List.mem_cons_of_mem _ hs))
  enforceLessThan := fun a s => (mapList_sound l.enforceLessThan a s).weaken fun w r _ h X hX =>
    vecRep.map (f := fun x => x) (g := fun x => x) rfl (fun _ _ _ => rfl) h hX
  isSoftZero := fun a s => by
    refine (foldGate1_and_sound (Q := fun w a c => ∀ X, l.PRep w a X → (c = 0 ∨ c = 1) ∧ (c = 1 → X = 0) ∧
      (l.RRep w a X → c = if X = 0 then 1 else 0)) l.isSoftZero a s).weaken ?_
    rintro w r _ ⟨cs, h1, h2⟩ X ⟨xs, x1, x2, rfl⟩
    rw [h2]
    simp only [B.lin_eq_zero x1]
    refine ⟨?_, ?_, ?_⟩
    · clear h2 x1
      induction h1 generalizing xs with
      | nil => simp
      | cons h _ ih =>
        cases x2 with
        | cons b1 b2 =>
          rcases (h _ b1).1 with h | h
          · simp [h]
          · rw [h, List.prod_cons, one_mul]
            exact ih _ b2
    · intro hp
      clear h2 x1
      induction h1 generalizing xs with
      | nil => cases x2; simp
      | cons h _ ih =>
        cases x2 with
        | cons b1 b2 =>
          rcases (h _ b1).1 with h0 | h0
          · simp [h0] at hp
          · rw [h0, List.prod_cons, one_mul] at hp
            intro x hx
            rcases List.mem_cons.1 hx with rfl | hx
            · exact (h _ b1).2.1 h0
            · exact ih _ b2 hp x hx
    · rintro ⟨ys, y1, y2, y3⟩
      obtain rfl := B.indep _ _ x1 y1 y3
      have := prod_bits (forall₂_map_prop (P := fun x => x = 0) (fun a x c hx hq => by
        have := (hq x (l.r_p _ _ _ hx)).2.2 hx
        split at this
        · next h => right; exact ⟨this, h⟩
        · next h => left; exact ⟨this, h⟩) h1 y2)
      simp only [List.mem_map, forall_exists_index, and_imp] at this
      rcases this with ⟨t1, t2⟩ | ⟨t1, t2⟩
      · rw [t1, if_pos]
        exact fun x hx => (t2 _ x hx rfl : x = 0)
      · rw [t1, if_neg]
        intro hh
        exact t2 fun P x hx he => he ▸ hh x hx
  isZero := fun a s => by
    refine (foldGate1_and_sound (Q := fun w a c => ∀ X, l.PRep w a X → c = if X = 0 then 1 else 0) l.isZero a s).weaken ?_
    rintro w r _ ⟨cs, h1, h2⟩ X ⟨xs, x1, x2, rfl⟩
    rw [h2]
    simp only [B.lin_eq_zero x1]
    have := prod_bits (forall₂_map_prop (P := fun x => x = 0) (fun a x c hx hq => by
      have := hq x hx
      split at this
      · next h => right; exact ⟨this, h⟩
      · next h => left; exact ⟨this, h⟩) h1 x2)
    simp only [List.mem_map, forall_exists_index, and_imp] at this
    rcases this with ⟨t1, t2⟩ | ⟨t1, t2⟩
    · rw [t1, if_pos]
      exact fun x hx => (t2 _ x hx rfl : x = 0)
    · rw [t1, if_neg]
      intro hh
      exact t2 fun P x hx he => he ▸ hh x hx
  isEqualUnenforced := fun a b s => by
    refine (foldEq1_sound (Q := fun w a b c => ∀ X Y, l.PRep w a X → l.PRep w b Y → (c = 0 ∨ c = 1) ∧ (c = 1 → X = Y) ∧
      (l.RRep w a X → l.RRep w b Y → c = if X = Y then 1 else 0)) l.isEqualUnenforced a b s).weaken ?_
    rintro w r _ ⟨cs, h1, h2⟩ X Y ⟨xs, x1, x2, rfl⟩ ⟨ys, y1, y2, rfl⟩
    rw [h2]
    have heq : lin B.e xs = lin B.e ys ↔ xs = ys := ⟨B.indep _ _ x1 y1, fun h => by rw [h]⟩
    have hb : cs.prod = 0 ∨ cs.prod = 1 := by
      clear h2 x1 y1 heq
      induction h1 generalizing xs ys with
      | nil => simp
      | cons h _ ih =>
        cases x2 with
        | cons b1 b2 =>
          cases y2 with
          | cons c1 c2 =>
            rcases (h _ _ b1 c1).1 with h | h
            · simp [h]
            · rw [h, List.prod_cons, one_mul]
              exact ih _ b2 _ c2
    refine ⟨hb, ?_, ?_⟩
    · rw [heq]
      intro hp
      clear h2 x1 y1 heq hb
      induction h1 generalizing xs ys with
      | nil => cases x2; cases y2; rfl
      | cons h _ ih =>
        cases x2 with
        | cons b1 b2 =>
          cases y2 with
          | cons c1 c2 =>
            rcases (h _ _ b1 c1).1 with h0 | h0
            · simp [h0] at hp
            · rw [h0, List.prod_cons, one_mul] at hp
              rw [(h _ _ b1 c1).2.1 h0, ih _ b2 _ c2 hp]
    · rintro ⟨xs', x1', x2', x3⟩ ⟨ys', y1', y2', y3⟩
      obtain rfl := B.indep _ _ x1 x1' x3
      obtain rfl := B.indep _ _ y1 y1' y3
      simp only [heq]
      clear h2 x1 y1 heq hb x3 y3 x2 y2 x1' y1'
      induction h1 generalizing xs ys with
      | nil => cases x2'; cases y2'; simp
      | cons h _ ih =>
        cases x2' with
        | cons b1 b2 =>
          cases y2' with
          | cons c1 c2 =>
            have := (h _ _ (l.r_p _ _ _ b1) (l.r_p _ _ _ c1)).2.2 b1 c1
            rw [List.prod_cons, ih _ _ b2 c2, this]
            simp only [List.cons.injEq]
            split
            · next h => simp [h]
            · next h => simp [h]
  assertEqual := fun a b s => by
    refine (forZip_sound l.assertEqual a b s).weaken ?_
    rintro w r _ h X Y ⟨xs, x1, x2, rfl⟩ ⟨ys, y1, y2, rfl⟩
    have h' := h (by rw [x2.length_eq, y2.length_eq, x1, y1])
    congr 1
    clear x1 y1 h
    induction h' generalizing xs ys with
    | nil => cases x2; cases y2; rfl
    | cons h _ ih =>
      cases x2 with
      | cons b1 b2 =>
        cases y2 with
        | cons c1 c2 => rw [h _ _ b1 c1, ih _ b2 _ c2]
  select := fun a b sel s => by
    refine (zipEqList_sound (fun a b => l.select a b sel) a b s).weaken ?_
    intro w r _ h
    constructor
    · rintro X Y ⟨xs, x1, x2, rfl⟩ ⟨ys, y1, y2, rfl⟩
      refine ⟨fun hs => ?_, fun hs => ?_⟩
      · exact ⟨xs, x1, All3.sel (f := true) hs (h.imp fun a b r hh X Y hX hY hs => (hh.1 X Y hX hY).1 hs) x2 y2, rfl⟩
      · exact ⟨ys, y1, All3.sel (f := false) hs (h.imp fun a b r hh X Y hX hY hs => (hh.1 X Y hX hY).2 hs) x2 y2, rfl⟩
    · rintro X Y ⟨xs, x1, x2, rfl⟩ ⟨ys, y1, y2, rfl⟩
      refine ⟨fun hs => ?_, fun hs => ?_⟩
      · exact ⟨xs, x1, All3.sel (f := true) hs (h.imp fun a b r hh X Y hX hY hs => (hh.2 X Y hX hY).1 hs) x2 y2, rfl⟩
      · exact ⟨ys, y1, All3.sel (f := false) hs (h.imp fun a b r hh X Y hX hY hs => (hh.2 X Y hX hY).2 hs) x2 y2, rfl⟩
  selectByIndicator := fun _ _ _ => Snd.panic
  selectByIndicatorR := fun _ _ _ => Snd.panic
  val_zero := by
    refine lin_zero _ _ fun x hx => ?_
    obtain ⟨v, hv, rfl⟩ := List.mem_map.1 hx
    exact hz v hv

end
end H2
