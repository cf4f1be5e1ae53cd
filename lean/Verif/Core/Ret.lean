import Verif.Core.Logic

/-! # Structural postconditions: facts about the returned value which hold in every successful run -/

set_option autoImplicit false
namespace H2
variable {p : ℕ} [Fact p.Prime] {α β γ : Type}

/-- Every value returned by a successful run of `m` satisfies `P`. -/
def Ret (m : M p α) (P : α → Prop) : Prop := ∀ s r s', m s = some (r, s') → P r

theorem Ret.any (m : M p α) : Ret m (fun _ => True) := fun _ _ _ _ => trivial

theorem Ret.pure {a : α} {P : α → Prop} (h : P a) : Ret (Pure.pure a : M p α) P := by
  intro s r s' hr
  have : (Pure.pure a : M p α) s = some (a, s) := rfl
  rw [this] at hr
  cases hr; exact h

theorem Ret.bind {m : M p α} {f : α → M p β} {P : α → Prop} {Q : β → Prop} (h : Ret m P)
    (k : ∀ a, P a → Ret (f a) Q) : Ret (m >>= f) Q := by
  intro s r s' hr
  obtain ⟨a, s1, h1, h2⟩ := bind_some.1 hr
  exact k a (h _ _ _ h1) _ _ _ h2

theorem Ret.bind_ {m : M p α} {f : α → M p β} {Q : β → Prop}
    (k : ∀ a, Ret (f a) Q) : Ret (m >>= f) Q := (Ret.any m).bind fun a _ => k a

theorem Ret.panic {P : α → Prop} : Ret (H2.panic : M p α) P := by
  intro s r s' hr; cases hr

theorem Ret.weaken {m : M p α} {P Q : α → Prop} (h : Ret m P) (k : ∀ a, P a → Q a) : Ret m Q :=
  fun _ _ _ hr => k _ (h _ _ _ hr)

theorem Ret.ite {c : Prop} [Decidable c] {m1 m2 : M p α} {P : α → Prop} (h1 : c → Ret m1 P) (h2 : ¬ c → Ret m2 P) :
    Ret (if c then m1 else m2) P := by
  split
  · exact h1 ‹_›
  · exact h2 ‹_›

theorem Snd.bindR {tbl : ZMod p → Prop} {s : Ctx p} {m : M p α} {f : α → M p β}
    {Q : (Cell → ZMod p) → α → Ctx p → Prop} {P : α → Prop}
    {R : (Cell → ZMod p) → β → Ctx p → Prop} (h : Snd tbl s m Q) (hP : Ret m P)
    (k : ∀ a s1, Ext s s1 → P a → Snd tbl s1 (f a) (fun w r s2 => Q w a s1 → R w r s2)) :
    Snd tbl s (m >>= f) R :=
  h.bindP (P := fun a _ => P a) (fun _ r s' hr => hP _ _ _ hr) k

end H2
