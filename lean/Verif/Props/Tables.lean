import Verif.Proofs.LexTok
import Verif.ParseFile
import Verif.Props.Lex
import Verif.Spec.Spelling
/-!
# Property theorem: the Unicode tables matter only at the characters of the text (C73)
-/

namespace Verif.Props
open Verif Verif.Spec

/-- The tables say the same about these characters. -/
def Agree (X X' : Xid) (s : Text) : Prop := ∀ c ∈ s, X.start c = X'.start c ∧ X.cont c = X'.cont c

theorem Agree.adv {X X' : Xid} {p q : LPoint} (h : Agree X X' p.s) (ha : Adv p q) : Agree X X' q.s := by
  obtain ⟨a, e, -⟩ := ha
  exact fun c hc => h c (by rw [e]; simp [hc])

theorem identLen_agree {X X' : Xid} {s : Text} (h : Agree X X' s) : identLen X s = identLen X' s := by
  cases s with
  | nil => rfl
  | cons c ci =>
    have key : ∀ t : Text, Agree X X' t → t.takeWhile X.cont = t.takeWhile X'.cont := by
      intro t
      induction t with
      | nil => intro _; rfl
      | cons d t ih =>
        intro h
        simp only [List.takeWhile_cons]
        rw [(h d (by simp)).2, ih fun c hc => h c (by simp [hc])]
    simp only [identLen, takeWhileLen]
    rw [(h c (by simp)).1, key ci fun c hc => h c (by simp [hc])]

/-- `p` and `q` do the same where the tables agree. -/
def SameLP {α : Type} (X X' : Xid) (p q : LP α) : Prop := ∀ pt, Agree X X' pt.s → p pt = q pt

/-- `p` only moves forward. -/
def Forward {α : Type} (p : LP α) : Prop := ∀ pt pt' v l, p pt = (.ok pt' v, l) → Adv pt pt'

theorem Forward.of {α : Type} {p : LP α} {Q : LPoint → LPoint → α → Prop} (h : ∀ pt, SpecAt p pt (Q pt)) : Forward p :=
  fun pt _ _ _ e => ((h pt).of_ok e).1

variable {X X' : Xid}

theorem SameLP.rfl {α : Type} {p : LP α} : SameLP X X' p p := fun _ _ => Eq.refl _

theorem SameLP.bind {α β : Type} {p q : LP α} {f g : α → LP β} (h : SameLP X X' p q) (hp : Forward p) (hf : ∀ v, SameLP X X' (f v) (g v)) :
    SameLP X X' (LP.bind p f) (LP.bind q g) := by
  intro pt ha
  unfold LP.bind
  rw [← h pt ha]
  match hr : p pt with
  | (.ok pt' v, l) => simp only [hf v pt' (ha.adv (hp _ _ _ _ hr))]
  | (.fail pt' e, l) => rfl
  | (.panic, l) => rfl
  | (.hang, l) => rfl

theorem SameLP.map {α β : Type} {p q : LP α} {f : α → β} (h : SameLP X X' p q) : SameLP X X' (LP.map p f) (LP.map q f) := by
  intro pt ha
  unfold LP.map LP.bind
  rw [h pt ha]

theorem SameLP.orElse {α : Type} {p q p' q' : LP α} (h : SameLP X X' p p') (h' : SameLP X X' q q') :
    SameLP X X' (LP.orElse p q) (LP.orElse p' q') := by
  intro pt ha
  unfold LP.orElse
  rw [h pt ha, h' pt ha]

/-- The alternatives do the same, one by one. -/
inductive SameAlts {α : Type} (X X' : Xid) : List (LP α) → List (LP α) → Prop
  | nil : SameAlts X X' [] []
  | cons {p q ps qs} : SameLP X X' p q → SameAlts X X' ps qs → SameAlts X X' (p :: ps) (q :: qs)

theorem SameAlts.app {α : Type} {a b a' b' : List (LP α)} (h : SameAlts X X' a a') (h' : SameAlts X X' b b') :
    SameAlts X X' (a ++ b) (a' ++ b') := by
  induction h with
  | nil => exact h'
  | cons h1 _ ih => exact .cons h1 ih

theorem SameAlts.refl {α : Type} (a : List (LP α)) : SameAlts X X' a a := by
  induction a with
  | nil => exact .nil
  | cons p a ih => exact .cons .rfl ih

theorem SameLP.alts {α : Type} {ps qs : List (LP α)} (h : SameAlts X X' ps qs) :
    ∀ {p q : LP α}, SameLP X X' p q → SameLP X X' (LP.alts p ps) (LP.alts q qs) := by
  induction h with
  | nil => exact id
  | cons h1 _ ih => exact fun h => ih (h.orElse h1)

theorem SameLP.optional {α : Type} {p q : LP α} (h : SameLP X X' p q) : SameLP X X' (LP.optional p) (LP.optional q) := by
  intro pt ha
  unfold LP.optional
  rw [h pt ha]

theorem SameLP.not {α : Type} {p q : LP α} {e : LErr} (h : SameLP X X' p q) : SameLP X X' (LP.not p e) (LP.not q e) := by
  intro pt ha
  unfold LP.not
  rw [h pt ha]

theorem SameLP.peek {α : Type} {p q : LP α} (h : SameLP X X' p q) : SameLP X X' (LP.peek p) (LP.peek q) := by
  intro pt ha
  unfold LP.peek
  rw [h pt ha]

theorem same_simpleIdent : SameLP X X' (simpleIdent X) (simpleIdent X') := by
  intro pt ha
  unfold simpleIdent
  rw [identLen_agree ha]

theorem same_keywordOrIdent : SameLP X X' (keywordOrIdent X) (keywordOrIdent X') := by
  intro pt ha
  unfold keywordOrIdent
  rw [identLen_agree ha]
  split
  · cases h : splitAtByte 2 pt.s with
    | none => rfl
    | some r =>
      obtain ⟨a, s2⟩ := r
      have e := (splitAtByte_some h).1
      have : Agree X X' s2 := fun c hc => ha c (by rw [e]; simp [hc])
      simp only [identLen_agree this]
  · rfl

theorem forward_point : Forward LP.point := .of fun _ => SpecAt.point
theorem forward_literal (w : Text) : Forward (literal w) := .of (literal_spec w)
theorem forward_not {α : Type} {p : LP α} {e : LErr} : Forward (LP.not p e) := by
  intro pt pt' v l h
  unfold LP.not at h
  match hp : p pt with
  | (.ok q v, l) => rw [hp] at h; cases h
  | (.fail q e', l) => rw [hp] at h; cases h; exact .refl _
  | (.panic, l) => rw [hp] at h; cases h
  | (.hang, l) => rw [hp] at h; cases h

theorem forward_optional {α : Type} {p : LP α} (h : Forward p) : Forward (LP.optional p) := by
  intro pt pt' v l hr
  unfold LP.optional at hr
  match hp : p pt with
  | (.ok q v, l) => rw [hp] at hr; cases hr; exact h _ _ _ _ hp
  | (.fail q e', l) =>
    rw [hp] at hr
    dsimp only at hr
    split at hr
    · cases hr; exact .refl _
    · cases hr
  | (.panic, l) => rw [hp] at hr; cases hr
  | (.hang, l) => rw [hp] at hr; cases hr

theorem same_fractional (r : Nat) : SameLP X X' (numberFractional X r) (numberFractional X' r) :=
  .bind .rfl forward_point fun _ => .bind .rfl (forward_literal _) fun _ => .bind .rfl forward_not fun _ =>
    .bind (.not (.peek same_simpleIdent)) forward_not fun _ => .rfl

theorem same_base (b : NumBase) (w : Text) (hw : w = basePrefix b) (r : Nat) (hr : r = radixOf b) :
    SameLP X X' (numberBase X b w r) (numberBase X' b w r) := by
  subst hw hr
  refine .bind .rfl (forward_literal _) fun _ => .bind .rfl (.of (numberDigits_spec b)) fun r => ?_
  exact SameLP.bind (X' := X') (q := LP.optional (numberFractional X' (radixOf b)))
    (f := fun fractional => LP.pure ({ base := b, integral := r.1, fractional := fractional, underscores := r.2 } : NumberPartial))
    (g := fun fractional => LP.pure ({ base := b, integral := r.1, fractional := fractional, underscores := r.2 } : NumberPartial))
    (.optional (same_fractional _)) (forward_optional (.of (numberFractional_spec X b))) fun _ => .rfl

theorem same_value : SameLP X X' (numberValue X) (numberValue X') :=
  .alts (.cons (same_base .Hexadecimal _ rfl _ rfl) (.cons (same_base .Octal _ rfl _ rfl) (.cons (same_base .Decimal _ rfl _ rfl) .nil)))
    (same_base .Binary _ rfl _ rfl)

theorem forward_orElse {α : Type} {p q : LP α} (hp : Forward p) (hq : Forward q) : Forward (LP.orElse p q) := by
  intro pt pt' v l h
  unfold LP.orElse at h
  match hr : p pt with
  | (.ok q v, l) => rw [hr] at h; cases h; exact hp _ _ _ _ hr
  | (.fail x e', l) =>
    rw [hr] at h
    dsimp only at h
    split at h
    · match hr2 : q pt with
      | (.ok y v, l2) => rw [hr2] at h; cases h; exact hq _ _ _ _ hr2
      | (.fail y e', l2) => rw [hr2] at h; cases h
      | (.panic, l2) => rw [hr2] at h; cases h
      | (.hang, l2) => rw [hr2] at h; cases h
    · cases h
  | (.panic, l) => rw [hr] at h; cases h
  | (.hang, l) => rw [hr] at h; cases h

theorem forward_value : Forward (numberValue X) :=
  forward_orElse (forward_orElse (forward_orElse (.of (numberBase_spec X .Binary)) (.of (numberBase_spec X .Hexadecimal)))
    (.of (numberBase_spec X .Octal))) (.of (numberBase_spec X .Decimal))

theorem forward_exponent : Forward numberExponent :=
  forward_orElse (.of (numberExponentWith_spec _)) (.of (numberExponentWith_spec _))

theorem same_number : SameLP X X' (number X) (number X') :=
  .bind .rfl forward_point fun _ => .bind same_value forward_value fun _ => .bind .rfl (forward_optional forward_exponent) fun _ =>
    .bind (.optional same_simpleIdent) (forward_optional (.of (simpleIdent_spec X))) fun _ => .rfl

theorem same_lifetime : SameLP X X' (lifetime X) (lifetime X') :=
  .bind .rfl forward_point fun _ => .bind .rfl (forward_literal _) fun _ => .bind same_simpleIdent (.of (simpleIdent_spec X)) fun _ => .rfl

theorem same_single : SameLP X X' (singleToken X) (singleToken X') := by
  refine .alts (.app (.app ?_ (.refl _)) ?_) .rfl
  · exact .cons .rfl (.cons .rfl (.cons .rfl (.cons .rfl (.cons .rfl (.cons .rfl (.cons (.map same_lifetime) .nil))))))
  · exact .cons same_keywordOrIdent (.cons (.map same_number) (.cons .rfl .nil))

attribute [local irreducible] singleToken

theorem next_agree {cl : Bool} {st : Tokens} (h : Agree X X' st.pt.s) : st.next X cl = st.next X' cl := by
  unfold Tokens.next
  rw [same_single st.pt h]

theorem drain_agree {cl : Bool} : ∀ (n : Nat) (st : Tokens) (acc : List Token), Agree X X' st.pt.s →
    Tokens.drain X cl n st acc = Tokens.drain X' cl n st acc := by
  intro n
  induction n with
  | zero => intros; rfl
  | succ n ih =>
    intro st acc h
    unfold Tokens.drain
    rw [← next_agree h]
    match hn : st.next X cl with
    | (none, _) => rfl
    | (some (.err d), _) => rfl
    | (some .panic, _) => rfl
    | (some (.tok t), st') =>
      refine ih st' _ ?_
      unfold Tokens.next at hn
      split at hn
      · cases hn
      · split at hn
        · cases hn; exact h
        · split at hn
          · rename_i e
            split at hn
            · cases hn
            · cases hn; exact h.adv ((singleToken_spec X st.pt).of_ok e).1
          · cases hn
          · cases hn
          · cases hn

/-- Two tables that say the same about the characters of the text lead to the same tokens or the same error, ... -/
theorem C73_tokens (X X' : Xid) (cl : Bool) (code : Text) (h : ∀ c ∈ code, X.start c = X'.start c ∧ X.cont c = X'.cont c) :
    lex X cl code = lex X' cl code := drain_agree _ _ _ h

/-- ... and to the same result of parsing. -/
theorem C73_result (X X' : Xid) (cl cp : Bool) (code : Text) (h : ∀ c ∈ code, X.start c = X'.start c ∧ X.cont c = X'.cont c) :
    parseRustFile X cl cp code = parseRustFile X' cl cp code := by
  unfold parseRustFile extractWhitespace
  rw [C73_tokens X X' cl code h]

/-- For a text of ASCII characters, the result is the same with all tables that are the usual ones there. -/
theorem C73_ascii (X X' : Xid) (hX : Sane X) (hX' : Sane X') (cl cp : Bool) (code : Text) (h : ∀ c ∈ code, c.toNat < 128) :
    parseRustFile X cl cp code = parseRustFile X' cl cp code :=
  C73_result X X' cl cp code fun c hc => by
    rw [hX.start c (h c hc), hX'.start c (h c hc), hX.cont c (h c hc), hX'.cont c (h c hc)]
    exact ⟨rfl, rfl⟩

/-- Tables with one more letter. -/
def accentXid : Xid where
  start c := c.isAlpha || c = 'é'
  cont c := c.isAlphanum || c = '_' || c = 'é'

/-- The hypotheses are met: the tables differ, but not on this text, which has a character beyond ASCII too. -/
example : (∀ c ∈ c!"fn f() { \"ß\" }", asciiXid.start c = accentXid.start c ∧ asciiXid.cont c = accentXid.cont c) ∧
    asciiXid.start 'é' ≠ accentXid.start 'é' := by decide

/-- The hypotheses are met: both tables are the usual ones on ASCII. -/
example : Sane asciiXid ∧ Sane accentXid ∧ ∀ c ∈ c!"fn f() {}", c.toNat < 128 := by
  have ws : ∀ c ∈ wsChars, asciiXid.start c = false ∧ asciiXid.cont c = false := by decide
  have ws' : ∀ c ∈ wsChars, accentXid.start c = false ∧ accentXid.cont c = false := by decide
  refine ⟨⟨fun c _ => rfl, fun c _ => rfl, ws⟩, ⟨fun c h => ?_, fun c h => ?_, ws'⟩, by decide⟩
  all_goals
    have : c ≠ 'é' := by rintro rfl; revert h; decide
    simp [accentXid, this]

/-- The tables do matter at the characters of the text. -/
example : lex asciiXid true c!"é" ≠ lex accentXid true c!"é" := by decide +kernel

end Verif.Props
