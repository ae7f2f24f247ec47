import Verif.Lemmas.AsmProg
import Verif.Lemmas.First
import Verif.Lemmas.ExprBack
import Verif.Spec.Info

/-! # Reading debugging information -/

set_option linter.unusedSimpArgs false
set_option linter.unusedVariables false

namespace T86
open Dbg Str

/-! ## Tokens at the beginning of a text -/

/-- The text begins with these tokens; after its end there are only ends. -/
inductive Feeds (stod : Str → Except Err Word) : List Tok → Str → Str → Prop
  | nil (s : Str) : Feeds stod [] s s
  | eof {e s rest : Str} {ts : List Tok} (h : Ending e) (hr : Feeds stod ts [] rest) : Feeds stod (.eof :: ts) e rest
  | cons {t : Tok} {ts : List Tok} {g w s rest : Str} (hg : Gap g) (hw : Spells stod t w) (hr : Feeds stod ts s rest)
      (hs : ∀ c r, s = c :: r → ¬ t.grows c) : Feeds stod (t :: ts) (g ++ (w ++ s)) rest

theorem Feeds.lex {stod : Str → Except Err Word} (i : Bool) {t : Tok} {ts : List Tok} {s rest : Str}
    (h : Feeds stod (t :: ts) s rest) : ∃ s', Lexer.lex stod i s = .ok (t, s') ∧ Feeds stod ts s' rest := by
  cases h with
  | eof h hr => exact ⟨[], Lexer.lex_nil i (.nil h), hr⟩
  | cons hg hw hr hs =>
    refine ⟨_, ?_, hr⟩
    rw [Lexer.lex_gap stod i hg]
    exact Lexer.lex_spells stod i hw _ hs

theorem Opening.feeds {stod : Str → Except Err Word} {ts : List Tok} {s rest : Str} (h : Opening stod ts s rest) :
    Feeds stod ts s rest := by
  induction h with
  | nil rest => exact .nil rest
  | cons hg hw hr hs ih => exact .cons hg hw ih hs

theorem Layout.feeds {stod : Str → Except Err Word} {ts : List Tok} {s : Str} (h : Layout stod ts s) :
    Feeds stod (ts ++ [.eof, .eof]) s [] := by
  induction h with
  | nil h => exact .eof (s := []) h (.eof (s := []) (.gap .nil) (.nil _))
  | cons hg hw hr hs ih => exact .cons hg hw ih hs

namespace Reader
variable {α β : Type}

theorem left_length (x : Reader α) {l rest : List Tok} {a : α} (h : x.left l = .ok (a, rest)) : rest.length ≤ l.length := by
  induction x generalizing l with
  | pure b => cases l <;> cases h <;> exact Nat.le_refl _
  | fail e => cases l <;> cases h
  | next i k ih =>
    cases l with
    | nil => exact ih _ h
    | cons t l => exact Nat.le_succ_of_le (ih _ h)
  | raw k ih => cases l <;> cases h

/-- What a reader that ends before the tokens do makes of the tokens, it makes of the text. -/
theorem left_run {stod : Str → Except Err Word} (x : Reader α) (f : α → Reader β) {l rest : List Tok} {a : α} {s tail : Str}
    (h : x.left l = .ok (a, rest)) (hne : rest ≠ []) (hf : Feeds stod l s tail) :
    ∃ s', (x.bind f).run stod s = (f a).run stod s' ∧ Feeds stod rest s' tail := by
  induction x generalizing l s with
  | pure b => cases l <;> cases h <;> exact ⟨s, rfl, hf⟩
  | fail e => cases l <;> cases h
  | next i k ih =>
    cases l with
    | nil =>
      have := left_length (k .eof) (l := []) h
      cases rest with
      | nil => exact absurd rfl hne
      | cons t l => simp at this
    | cons t l =>
      obtain ⟨s1, h1, h2⟩ := hf.lex i
      obtain ⟨s2, h3, h4⟩ := ih t h h2
      refine ⟨s2, ?_, h4⟩
      show Reader.run stod (.next i fun t => (k t).bind f) s = _
      rw [Reader.run, h1]
      exact h3
  | raw k ih => cases l <;> cases h

end Reader

namespace Info
open Pars

theorem parses_expect {t : Tok} {u : Tok} {look : Tok → Prop} {ts : List Tok} {β : Type} {f : Unit → Pars β} {b : β}
    (h : Parses (f ()) (t :: ts) b look) : Parses (expect t >>= f) (u :: t :: ts) b look := by
  intro s l t' rest e hn hl
  simp only [List.cons_append, List.cons.injEq] at e
  obtain ⟨e1, e2⟩ := e
  subst e2
  obtain ⟨s', h1, h2⟩ := h (advance s t) (ts ++ t' :: rest) t' rest rfl (num_advance _ _) hl
  refine ⟨s', ?_, h2⟩
  rw [← h1]
  show ((expect t s).bind fun r => f r.1 r.2).left _ = _
  have : expect t s = .next false fun u => if u = t then .pure ((), advance s u) else .fail .parser := by
    unfold expect
    show Reader.next false _ = _
    congr 1
    funext u
    show (if u = t then _ else _ : Pars Unit) (advance s u) = _
    split <;> rfl
  rw [this]
  show ((if t = t then _ else _ : Reader (Unit × PState)).bind _).left _ = _
  rw [if_pos rfl]
  rfl

theorem parses_expectNum {u : Tok} {n : Nat} {look : Tok → Prop} {ts : List Tok} {β : Type} {f : Nat → Pars β} {b : β}
    (h : Parses (f n) (.num n :: ts) b look) : Parses (expectNum >>= f) (u :: .num n :: ts) b look := by
  intro s l t' rest e hn hl
  simp only [List.cons_append, List.cons.injEq] at e
  obtain ⟨e1, e2⟩ := e
  subst e2
  obtain ⟨s', h1, h2⟩ := h (advance s (.num n)) (ts ++ t' :: rest) t' rest rfl (num_advance _ _) hl
  exact ⟨s', h1, h2⟩

theorem parses_expectId {u : Tok} {n : Str} {look : Tok → Prop} {ts : List Tok} {β : Type} {f : Str → Pars β} {b : β}
    (h : Parses (f n) (.id n :: ts) b look) : Parses (expectId >>= f) (u :: .id n :: ts) b look := by
  intro s l t' rest e hn hl
  simp only [List.cons_append, List.cons.injEq] at e
  obtain ⟨e1, e2⟩ := e
  subst e2
  obtain ⟨s', h1, h2⟩ := h (advance s (.id n)) (ts ++ t' :: rest) t' rest rfl (num_advance _ _) hl
  exact ⟨s', h1, h2⟩

theorem parses_lastId {f : Str → Pars β} {n : Str} {ts : List Tok} {b : β} {look : Tok → Prop}
    (h : Parses (f n) (.id n :: ts) b look) : Parses (lastId >>= f) (.id n :: ts) b look := by
  intro s l t' rest e hn hl
  obtain ⟨s', h1, h2⟩ := h s l t' rest e hn hl
  refine ⟨s', ?_, h2⟩
  have : s.tok = .id n := by simp at e; exact e.1
  show (f s.id s).left l = _
  rw [hn.2 n this]; exact h1

/-- Any token. -/
abbrev any (_ : Tok) : Prop := True

theorem parses_offset {ts : List Tok} {w : Word} (h : OffsetSyn ts w) : Parses offset ts w any := by
  unfold offset
  cases h with
  | pos n => exact Parses.tok (Parses.tok (Parses.next (Parses.pure _ _)))
  | neg n => exact Parses.tok (Parses.next (Parses.tok (Parses.next (Parses.pure _ _))))

theorem parses_map {α β : Type} {x : Pars α} {ts : List Tok} {a : α} {look : Tok → Prop} (f : α → β) (h : Parses x ts a look) :
    Parses (x >>= fun a => pure (f a)) ts (f a) look := by
  have := h.bind (f := fun a => (pure (f a) : Pars β)) (Parses.pure _ look) (fun _ h => h)
  rwa [List.append_nil] at this

theorem parses_oneLoc {ts : List Tok} {i : LocIns} (h : LocSyn ts i) : Parses oneLoc ts i any := by
  unfold oneLoc
  cases h with
  | base h =>
    refine Parses.tok (Parses.next ?_)
    rw [if_pos rfl]
    exact parses_map _ (parses_offset h)
  | pushNum h =>
    refine Parses.tok (Parses.next ?_)
    rw [if_neg (by decide), if_pos rfl]
    refine parses_map (fun l => LocIns.push l) ?_
    unfold operand
    have ho := parses_offset h
    cases h with
    | pos n => exact Parses.tok (parses_map _ ho)
    | neg n => exact Parses.tok (parses_map _ ho)
  | pushReg n =>
    refine Parses.tok (Parses.next ?_)
    rw [if_neg (by decide), if_pos rfl]
    refine parses_map (fun l => LocIns.push l) ?_
    unfold operand
    exact Parses.tok (Parses.next (Parses.pure _ _))
  | add =>
    refine Parses.tok (Parses.next ?_)
    rw [if_neg (by decide), if_neg (by decide), if_pos rfl]
    exact Parses.pure _ _
  | deref =>
    refine Parses.tok (Parses.next ?_)
    rw [if_neg (by decide), if_neg (by decide), if_neg (by decide), if_pos rfl]
    exact Parses.pure _ _

theorem loc_head {ts : List Tok} {i : LocIns} (h : LocSyn ts i) : ∃ n q, ts = .id n :: q := by
  cases h <;> exact ⟨_, _, rfl⟩

theorem parses_locList : ∀ (fuel : Nat) (ts : List Tok) (l acc : List LocIns), Items .semi LocSyn ts l → ts.length < fuel →
    Parses (locList fuel acc) (ts ++ [.rbrack]) (acc ++ l) any
  | 0, _, _, _, _, h => by omega
  | fuel + 1, ts, l, acc, h, hf => by
    unfold locList
    cases h with
    | nil =>
      rw [List.append_nil]
      exact Parses.tok (Parses.next (Parses.pure _ _))
    | last h =>
      rename_i i
      have hb := (parses_oneLoc h).bind (f := fun i => (Pars.tok >>= fun
          | .semi => do
              next
              locList fuel (acc ++ [i])
          | .rbrack => locList fuel (acc ++ [i])
          | _ => throw .parser : Pars (List LocIns))) (us := [.rbrack]) (b := acc ++ [i]) (look2 := any) (Parses.tok (by
        have := parses_locList fuel [] [] (acc ++ [i]) .nil (by obtain ⟨n, q, rfl⟩ := loc_head h; simp at hf; simp; omega)
        simpa using this)) trivial
      obtain ⟨n, q, rfl⟩ := loc_head h
      exact Parses.tok hb
    | @cons ts us i l h hl =>
      have hb := (parses_oneLoc h).bind (f := fun i => (Pars.tok >>= fun
          | .semi => do
              next
              locList fuel (acc ++ [i])
          | .rbrack => locList fuel (acc ++ [i])
          | _ => throw .parser : Pars (List LocIns))) (us := .semi :: (us ++ [.rbrack])) (b := acc ++ i :: l) (look2 := any)
          (Parses.tok (Parses.next (by
        have := parses_locList fuel us l (acc ++ [i]) hl (by simp at hf; omega)
        simpa using this))) trivial
      obtain ⟨n, q, rfl⟩ := loc_head h
      rw [List.append_assoc]
      exact Parses.tok hb

theorem parses_exprLoc {n : Nat} {ts : List Tok} {l : List LocIns} (h : ProgramSyn ts l) (hn : ts.length < n) :
    Parses (exprLoc n) ts l any := by
  unfold exprLoc
  cases h with
  | none => exact Parses.tok (Parses.next (Parses.tok (Parses.next (Parses.pure _ _))))
  | @one ts i h =>
    refine Parses.tok (Parses.next ?_)
    have hb := (parses_oneLoc h).bind (f := fun i => (next >>= fun _ => pure [i] : Pars (List LocIns))) (us := [.backtick])
      (Parses.next (Parses.pure _ any)) trivial
    obtain ⟨n, q, rfl⟩ := loc_head h
    exact Parses.tok hb
  | many h =>
    refine Parses.tok (Parses.next ?_)
    exact parses_locList _ _ _ [] h (by simp at hn; omega)

theorem parses_member {ts : List Tok} {m : Member} (h : MemberSyn ts m) : Parses member ts m any := by
  unfold member
  cases h
  refine Parses.tok (parses_expect (parses_expect (parses_expectNum (parses_expect (parses_expectId (parses_expect ?_))))))
  exact Parses.next (Parses.pure _ _)

theorem parses_separator_comma {ts : List Tok} {β : Type} {f : Unit → Pars β} {b : β} {look : Tok → Prop}
    (h : Parses (f ()) ts b look) : Parses (separator >>= f) (.comma :: ts) b look := by
  have h1 : Parses separator [.comma] () any := by
    unfold separator
    exact Parses.tok Parses.nextLast
  exact h1.bind h (by unfold Head; split <;> intros <;> trivial)

theorem parses_separator_brace {ts : List Tok} {β : Type} {f : Unit → Pars β} {b : β} {look : Tok → Prop}
    (h : Parses (f ()) (.rbrace :: ts) b look) : Parses (separator >>= f) (.rbrace :: ts) b look := by
  have h1 : Parses separator [] () (fun t => t = .rbrace) := by
    unfold separator
    refine Parses.tokNil ?_
    rintro t rfl
    rfl
  exact h1.bind h rfl

theorem member_head {ts : List Tok} {i : Member} (h : MemberSyn ts i) : ∃ n q, ts = .num n :: q := by
  cases h; exact ⟨_, _, rfl⟩

theorem parses_members : ∀ (fuel : Nat) (ts : List Tok) (l acc : List Member), Items .comma MemberSyn ts l → ts.length < fuel →
    Parses (members fuel acc) (ts ++ [.rbrace]) (acc ++ l) any
  | 0, _, _, _, _, h => by omega
  | fuel + 1, ts, l, acc, h, hf => by
    unfold members
    cases h with
    | nil =>
      rw [List.append_nil]
      exact Parses.tok (Parses.next (Parses.pure _ _))
    | last h =>
      rename_i i
      have hb := (parses_member h).bind (f := fun m => (separator >>= fun _ => members fuel (acc ++ [m])))
          (us := [.rbrace]) (b := acc ++ [i]) (look2 := any) (parses_separator_brace (by
        have := parses_members fuel [] [] (acc ++ [i]) .nil (by obtain ⟨n, q, rfl⟩ := member_head h; simp at hf; simp; omega)
        simpa using this)) trivial
      obtain ⟨n, q, rfl⟩ := member_head h
      exact Parses.tok hb
    | @cons ts us i l h hl =>
      have hb := (parses_member h).bind (f := fun m => (separator >>= fun _ => members fuel (acc ++ [m])))
          (us := .comma :: (us ++ [.rbrace])) (b := acc ++ i :: l) (look2 := any) (parses_separator_comma (by
        have := parses_members fuel us l (acc ++ [i]) hl (by simp at hf; omega)
        simpa using this)) trivial
      obtain ⟨n, q, rfl⟩ := member_head h
      rw [List.append_assoc]
      exact Parses.tok hb

/-- The tokens of an attribute after the name. -/
theorem parses_attr {n : Nat} {ts : List Tok} {a : Attr} (h : AttrSyn ts a) (hn : ts.length < n) :
    ∃ v q, ts = .id v :: q ∧ "ATTR".toList.isPrefixOf v = true ∧ Parses (attr n v) q a any := by
  have key : ∀ {v : Str} {q : List Tok}, Parses (attrValue n v) q a any → Parses (attr n v) (.colon :: q) a any := by
    intro v q h
    unfold attr
    exact Parses.tok (Parses.next h)
  have num : ∀ (f : Nat → Attr) (m : Nat), Parses (attrNum f) [.num m] (f m) any := by
    intro f m
    exact Parses.tok (Parses.next (Parses.pure _ _))
  cases h with
  | name m => exact ⟨_, _, rfl, by decide, key (by
      rw [attrValue, if_pos rfl]; exact Parses.tok (Parses.next (Parses.pure _ _)))⟩
  | quoted m => exact ⟨_, _, rfl, by decide, key (by
      rw [attrValue, if_pos rfl]; exact Parses.tok (Parses.next (Parses.pure _ _)))⟩
  | type m => exact ⟨_, _, rfl, by decide, key (by rw [attrValue, if_neg (by decide), if_pos rfl]; exact num _ _)⟩
  | id m => exact ⟨_, _, rfl, by decide, key (by rw [attrValue, if_neg (by decide), if_neg (by decide), if_pos rfl]; exact num _ _)⟩
  | beginAddr m => exact ⟨_, _, rfl, by decide, key (by
      rw [attrValue, if_neg (by decide), if_neg (by decide), if_neg (by decide), if_pos rfl]; exact num _ _)⟩
  | endAddr m => exact ⟨_, _, rfl, by decide, key (by
      rw [attrValue, if_neg (by decide), if_neg (by decide), if_neg (by decide), if_neg (by decide), if_pos rfl]; exact num _ _)⟩
  | size m => exact ⟨_, _, rfl, by decide, key (by
      rw [attrValue, if_neg (by decide), if_neg (by decide), if_neg (by decide), if_neg (by decide), if_neg (by decide), if_pos rfl]
      exact num _ _)⟩
  | members h => exact ⟨_, _, rfl, by decide, key (by
      rw [attrValue, if_neg (by decide), if_neg (by decide), if_neg (by decide), if_neg (by decide), if_neg (by decide),
        if_neg (by decide), if_pos rfl]
      unfold attrMembers
      refine Parses.tok (Parses.next ?_)
      exact parses_map _ (parses_members _ _ _ [] h (by simp at hn; omega)))⟩
  | location h => exact ⟨_, _, rfl, by decide, key (by
      rw [attrValue, if_neg (by decide), if_neg (by decide), if_neg (by decide), if_neg (by decide), if_neg (by decide),
        if_neg (by decide), if_neg (by decide), if_pos rfl]
      exact parses_map _ (parses_exprLoc h (by simp at hn; omega)))⟩

theorem dieTag_text {tag : Tag} {n : String} (h : tag.text = some n) :
    dieTag n.toList = pure tag ∧ "DIE".toList.isPrefixOf n.toList = true ∧ "ATTR".toList.isPrefixOf n.toList = false := by
  cases tag <;> cases h <;> exact ⟨rfl, by decide, by decide⟩

/-- An entry without the name, given bounds. -/
def DieOk (n : Nat) (f : Nat) (ts : List Tok) (d : Die) : Prop :=
  ∃ v q, ts = .id v :: q ∧ "ATTR".toList.isPrefixOf v = false ∧ "DIE".toList.isPrefixOf v = true ∧ Parses (die n f v) q d any

theorem head_any (us : List Tok) (look : Tok → Prop) : Head us any look := by
  unfold Head; split <;> intros <;> trivial

theorem body_attr {n : Nat} {D : Str → Pars Die} {fuel : Nat} {as0 : List Attr} {ds0 : List Die} {ts us : List Tok} {a : Attr}
    {b : List Attr × List Die} (h : AttrSyn ts a) (hn : ts.length < n)
    (hr : Parses (separator >>= fun _ => dieBody n D fuel (as0 ++ [a]) ds0) us b any) :
    Parses (dieBody n D (fuel + 1) as0 ds0) (ts ++ us) b any := by
  unfold dieBody
  obtain ⟨v, q, rfl, hv, hp⟩ := parses_attr h hn
  refine Parses.tok (parses_lastId (Parses.next ?_))
  rw [if_pos hv]
  exact hp.bind hr (head_any _ _)

theorem body_die {n df : Nat} {fuel : Nat} {as0 : List Attr} {ds0 : List Die} {ts us : List Tok} {d : Die}
    {b : List Attr × List Die} (h : DieOk n df ts d)
    (hr : Parses (separator >>= fun _ => dieBody n (die n df) fuel as0 (ds0 ++ [d])) us b any) :
    Parses (dieBody n (die n df) (fuel + 1) as0 ds0) (ts ++ us) b any := by
  unfold dieBody
  obtain ⟨v, q, rfl, hv, hv', hp⟩ := h
  refine Parses.tok (parses_lastId (Parses.next ?_))
  rw [if_neg (by rw [hv]; decide), if_pos hv']
  exact hp.bind hr (head_any _ _)

theorem attr_pos {ts : List Tok} {a : Attr} (h : AttrSyn ts a) : 0 < ts.length := by cases h <;> simp

theorem die_pos {ts : List Tok} {d : Die} (h : DieSyn ts d) : 0 < ts.length := by cases h; simp

theorem parses_body (n : Nat) (df : Nat) : ∀ (fuel : Nat) (ts : List Tok) (as as0 : List Attr) (ds ds0 : List Die),
    BodySyn ts as ds → ts.length < fuel → ts.length < n →
    (∀ us d, us.length ≤ ts.length → DieSyn us d → DieOk n df us d) →
    Parses (dieBody n (die n df) fuel as0 ds0) (ts ++ [.rbrace]) (as0 ++ as, ds0 ++ ds) any
  | 0, _, _, _, _, _, _, h, _, _ => by omega
  | fuel + 1, ts, as, as0, ds, ds0, h, hf, hn, hd => by
    have stop : ∀ as0 ds0, 0 < fuel → Parses (separator >>= fun _ => dieBody n (die n df) fuel as0 ds0) [.rbrace] (as0, ds0) any := by
      intro as0 ds0 h0
      refine parses_separator_brace ?_
      have := parses_body n df fuel [] [] as0 [] ds0 .nil h0 (by simp; omega) (by
        intro us d hu h
        have := die_pos h
        simp only [List.length_nil] at hu
        omega)
      simpa using this
    cases h with
    | nil =>
      unfold dieBody
      rw [List.append_nil, List.append_nil]
      exact Parses.tok (Parses.next (Parses.pure _ _))
    | lastAttr h =>
      rw [List.append_nil]
      exact body_attr h hn (stop _ _ (by have := attr_pos h; omega))
    | lastDie h =>
      rw [List.append_nil]
      exact body_die (hd _ _ (Nat.le_refl _) h) (stop _ _ (by have := die_pos h; omega))
    | @attr ts us a as ds h hb =>
      rw [List.append_assoc]
      simp at hf hn hd
      refine body_attr h (by omega) (parses_separator_comma ?_)
      have := parses_body n df fuel us as (as0 ++ [a]) ds ds0 hb (by omega) (by omega) (fun us d hu h => hd us d (by omega) h)
      simpa using this
    | @die ts us d as ds h hb =>
      rw [List.append_assoc]
      simp at hf hn hd
      refine body_die (hd _ _ (by omega) h) (parses_separator_comma ?_)
      have := parses_body n df fuel us as as0 ds (ds0 ++ [d]) hb (by omega) (by omega) (fun us d hu h => hd us d (by omega) h)
      simpa using this

theorem parses_die (n : Nat) : ∀ (f : Nat) (ts : List Tok) (d : Die), DieSyn ts d → ts.length < f → ts.length < n →
    DieOk n f ts d
  | 0, _, _, _, h, _ => by omega
  | f + 1, ts, d, h, hf, hn => by
    cases h with
    | @mk tag m ts as ds ht h =>
      obtain ⟨h1, h2, h3⟩ := dieTag_text ht
      simp at hf hn
      refine ⟨_, _, rfl, h3, h2, ?_⟩
      unfold die
      refine Parses.tok (parses_expect (Parses.next ?_))
      rw [h1]
      show Parses (dieBody n (die n f) n [] [] >>= fun b => pure (Die.mk tag b.1 b.2)) _ _ _
      refine parses_map (fun b : List Attr × List Die => Die.mk tag b.1 b.2) (a := (as, ds)) ?_
      exact parses_body n f n ts as [] ds [] h (by omega) (by omega)
        (fun us d hu h => parses_die n f us d h (by omega) (by omega))

/-- A token that ends a section. -/
abbrev ends (t : Tok) : Prop := t = .dot ∨ t = .eof

theorem parses_debugInfo {n : Nat} {ts : List Tok} {d : Die} (h : DieSyn ts d) (hn : ts.length < n) :
    Parses (debugInfo n) ts d ends := by
  obtain ⟨v, q, rfl, h1, h2, hp⟩ := parses_die n n ts d h hn hn
  unfold debugInfo
  exact Parses.tok (Parses.next (hp.mono fun _ _ => trivial))

theorem parses_debugInfo_nil {n : Nat} : Parses (debugInfo n) [] (.mk .invalid [] []) ends := by
  unfold debugInfo
  refine Parses.tokNil ?_
  rintro t (rfl | rfl) <;> rfl

theorem parses_debugLine : ∀ (fuel : Nat) (l : List (Nat × Nat)) (m : LineMapping), l.length < fuel →
    Parses (debugLine fuel m) (l.map fun e => [Tok.num e.1, .colon, .num e.2]).flatten
      (l.foldl (fun m e => Map.assign m e.1 e.2) m) ends
  | 0, _, _, h => by omega
  | fuel + 1, [], m, h => by
    unfold debugLine
    refine Parses.tokNil ?_
    rintro t (rfl | rfl) <;> rfl
  | fuel + 1, e :: l, m, h => by
    unfold debugLine
    have ih := parses_debugLine fuel l (Map.assign m e.1 e.2) (by simp at h; omega)
    have h1 : Parses lineEntry [.num e.1, .colon, .num e.2] e any := by
      unfold lineEntry
      exact Parses.tok (parses_expect (parses_expectNum (Parses.next (Parses.pure _ _))))
    have h2 := h1.bind (f := fun e => debugLine fuel (Map.assign m e.1 e.2)) ih (head_any _ _)
    rw [List.map_cons, List.flatten_cons]
    exact Parses.tok h2

theorem parses_skip : ∀ (fuel : Nat) (ts : List Tok), .dot ∉ ts → .eof ∉ ts → ts.length < fuel →
    Parses (skipSection fuel) ts () ends
  | 0, _, _, _, h => by omega
  | fuel + 1, [], _, _, _ => by
    unfold skipSection
    refine Parses.tokNil ?_
    rintro t (rfl | rfl) <;> rfl
  | fuel + 1, t :: ts, h1, h2, h => by
    unfold skipSection
    have ih := parses_skip fuel ts (by simp_all) (by simp_all) (by simp at h; omega)
    refine Parses.tok ?_
    split
    · simp at h1
    · simp at h2
    · exact Parses.next ih

/-- The tokens of instructions and data have no dots. -/
theorem print_toks_nodot (r : RegExpr) : .dot ∉ r.toks ∧ .eof ∉ r.toks := by
  have h : ∀ w, .dot ∉ intToks w ∧ .eof ∉ intToks w := by
    intro w; unfold intToks; split <;> simp
  cases r <;> simp [RegExpr.toks, Reg.tk, (h _).1, (h _).2]

theorem operand_nodot (o : Operand) : .dot ∉ o.toks ∧ .eof ∉ o.toks := by
  have h : ∀ w, .dot ∉ intToks w ∧ .eof ∉ intToks w := by
    intro w; unfold intToks; split <;> simp
  cases o <;> simp [Operand.toks, (h _).1, (h _).2, (print_toks_nodot _).1, (print_toks_nodot _).2]

theorem more_nodot : ∀ (l : List Operand), .dot ∉ moreToks l ∧ .eof ∉ moreToks l
  | [] => by simp [moreToks]
  | o :: l => by simp [moreToks, (operand_nodot o).1, (operand_nodot o).2, (more_nodot l).1, (more_nodot l).2]

theorem instr_nodot (i : Instr) : .dot ∉ i.toks ∧ .eof ∉ i.toks := by
  unfold Instr.toks
  split
  · simp
  · rename_i o l _
    simp [(operand_nodot o).1, (operand_nodot o).2, (more_nodot l).1, (more_nodot l).2]

/-- The name of a section of instructions or data. -/
def sectName : Sect → Str
  | .text _ => "text".toList
  | .data _ => "data".toList

/-- What follows it. -/
def sectRest : Sect → List Tok
  | .text l => (l.map fun x => (x.1.toList.map Tok.num) ++ x.2.toks).flatten
  | .data l => (l.map DataItem.toks).flatten

theorem sect_split (x : Sect) : x.toks = .dot :: .id (sectName x) :: sectRest x := by cases x <;> rfl

theorem sect_nodot (x : Sect) : .dot ∉ sectRest x ∧ .eof ∉ sectRest x := by
  cases x with
  | text l =>
    constructor <;>
    · simp only [sectRest, List.mem_flatten, List.mem_map, not_exists, not_and, forall_exists_index, and_imp]
      rintro _ y hy rfl h
      simp only [List.mem_append, List.mem_map, Option.mem_toList] at h
      rcases h with ⟨a, _, h⟩ | h
      · cases h
      · first | exact (instr_nodot _).1 h | exact (instr_nodot _).2 h
  | data l =>
    constructor <;>
    · simp only [sectRest, List.mem_flatten, List.mem_map, not_exists, not_and, forall_exists_index, and_imp]
      rintro _ y hy rfl h
      cases y <;> simp [DataItem.toks] at h

theorem sectName_ne (x : Sect) : sectName x ≠ "debug_source".toList ∧ sectName x ≠ "debug_line".toList ∧
    sectName x ≠ "debug_info".toList := by
  have h1 : sectName x = "text".toList ∨ sectName x = "data".toList := by
    cases x
    · exact Or.inl rfl
    · exact Or.inr rfl
  rcases h1 with h | h <;> rw [h] <;> decide

/-- What a section adds to the debugging information. -/
def addPart (u : Infos) : Part → Infos
  | .lines l => { u with lines := some (.ofEntries l) }
  | .info d => { u with top := some d }
  | _ => u

theorem parses_section {ts : List Tok} {p : Part} (h : PartSyn ts p) (he : .eof ∉ ts) (n : Nat) (hn : ts.length < n) (u : Infos) :
    ∃ name q, ts = .dot :: .id name :: q ∧ name ≠ "debug_source".toList ∧ Parses (section' n name u) q (addPart u p) ends := by
  have skip : ∀ {name : Str} {q : List Tok}, name ≠ "debug_line".toList → name ≠ "debug_info".toList → .dot ∉ q → .eof ∉ q →
      q.length < n → Parses (section' n name u) q u ends := by
    intro name q h1 h2 h3 h4 h5
    unfold section'
    rw [if_neg h1, if_neg h2]
    exact parses_map (fun _ => u) (parses_skip n q h3 h4 h5)
  cases h with
  | code x =>
    rw [sect_split] at hn ⊢
    refine ⟨_, _, rfl, (sectName_ne x).1, skip (sectName_ne x).2.1 (sectName_ne x).2.2 (sect_nodot x).1 (sect_nodot x).2
      (by simp at hn; omega)⟩
  | lines l =>
    refine ⟨_, _, rfl, by decide, ?_⟩
    unfold section'
    rw [if_pos rfl]
    refine parses_map (fun m => ({ u with lines := some m } : Infos)) (parses_debugLine n l [] ?_)
    have : l.length ≤ (l.map fun e => [Tok.num e.1, .colon, .num e.2]).flatten.length := by
      clear hn he
      induction l with
      | nil => simp
      | cons e l ih => simp only [List.map_cons, List.flatten_cons, List.length_append, List.length_cons] at ih ⊢; omega
    simp only [List.length_cons] at hn
    omega
  | info h =>
    refine ⟨_, _, rfl, by decide, ?_⟩
    unfold section'
    rw [if_neg (by decide), if_pos rfl]
    exact parses_map (fun d => ({ u with top := some d } : Infos)) (parses_debugInfo h (by simp at hn; omega))
  | empty =>
    refine ⟨_, _, rfl, by decide, ?_⟩
    unfold section'
    rw [if_neg (by decide), if_pos rfl]
    exact parses_map (fun d => ({ u with top := some d } : Infos)) parses_debugInfo_nil
  | other hm ht =>
    simp only [List.map_cons, List.map_nil, List.mem_cons, List.not_mem_nil, or_false, not_or] at hm
    refine ⟨_, _, rfl, hm.2.2.2.2, skip hm.2.2.1 hm.2.2.2.1 ht (by simp at he; exact he) (by simp at hn; omega)⟩

theorem bind_assoc {α β γ : Type} (x : Reader α) (f : α → Reader β) (g : β → Reader γ) :
    (x.bind f).bind g = x.bind fun a => (f a).bind g := by
  induction x with
  | pure a => rfl
  | fail e => rfl
  | next i k ih => simp only [Reader.bind]; congr 1; funext t; exact ih t
  | raw k ih => simp only [Reader.bind]; congr 1; funext t; exact ih t

theorem part_head {ts : List Tok} {l : List Part} (h : PartsSyn ts l) (t : Tok) (ht : ends t) (rest : List Tok) :
    ∃ t' rest', ts ++ t :: rest = t' :: rest' ∧ ends t' := by
  cases h with
  | nil => exact ⟨t, rest, rfl, ht⟩
  | @cons ts us p l h hl =>
    have : ∃ q, ts = .dot :: q := by
      cases h with
      | code x => exact ⟨_, sect_split x⟩
      | _ => exact ⟨_, rfl⟩
    obtain ⟨q, rfl⟩ := this
    exact ⟨.dot, _, rfl, Or.inl rfl⟩

theorem run_sections {stod : Str → Except Err Word} {β : Type} (n : Nat) (g : Infos × PState → Reader β) {ts : List Tok}
    {l : List Part} (h : PartsSyn ts l) (he : .eof ∉ ts) (hn : ts.length < n) :
    ∀ (fuel : Nat) (u : Infos) (st : PState) (toks : List Tok) (t : Tok) (rest : List Tok) (s tail : Str), ts.length < fuel →
      st.tok :: toks = ts ++ t :: rest → Num st → ends t → rest ≠ [] → Feeds stod toks s tail →
      ∃ fuel' st' s', ((sections n fuel u st).bind g).run stod s
        = ((sections n (fuel' + 1) (l.foldl addPart u) st').bind g).run stod s' ∧ st'.tok = t ∧ Feeds stod rest s' tail := by
  induction h with
  | nil =>
    intro fuel u st toks t rest s tail hf e hnum ht hne hfd
    obtain ⟨f, rfl⟩ : ∃ f, fuel = f + 1 := ⟨fuel - 1, by simp at hf; omega⟩
    simp only [List.nil_append, List.cons.injEq] at e
    exact ⟨f, st, s, rfl, e.1, e.2 ▸ hfd⟩
  | @cons ts us p l h hl ih =>
    intro fuel u st toks t rest s tail hf e hnum ht hne hfd
    simp only [List.length_append] at hn hf
    obtain ⟨f, rfl⟩ : ∃ f, fuel = f + 1 := ⟨fuel - 1, by omega⟩
    have he1 : .eof ∉ ts := fun hh => he (by simp [hh])
    have he2 : .eof ∉ us := fun hh => he (by simp [hh])
    obtain ⟨name, q, rfl, hns, hp⟩ := parses_section h he1 n (by omega) u
    have e' := e
    rw [List.append_assoc] at e'
    simp only [List.cons_append, List.cons.injEq] at e'
    obtain ⟨e1, e2⟩ := e'
    subst e2
    obtain ⟨s1, hl1, hf1⟩ := hfd.lex false
    obtain ⟨t', rest', e3, ht'⟩ := part_head hl t ht rest
    have hX : Parses (next >>= fun _ => section' n name u) (.id name :: q) (addPart u p) ends := Parses.next hp
    obtain ⟨st2, hx1, hx2, hx3⟩ := hX (advance st (.id name)) (q ++ (us ++ t :: rest)) t' rest' (by rw [e3]; rfl) (num_advance _ _) ht'
    have hne' : rest' ≠ [] := by
      cases us with
      | nil => cases e3; exact hne
      | cons a us => cases e3; simp
    obtain ⟨s2, hr, hf2⟩ := Reader.left_run _ (fun r => (sections n f r.1 r.2).bind g) hx1 hne' hf1
    obtain ⟨f', st', s', hr', ht2, hf3⟩ := ih he2 (by omega) f (addPart u p) st2 rest' t rest s2 tail
      (by simp at hf; omega) (by rw [hx2, e3]) hx3 ht hne hf2
    refine ⟨f', st', s', ?_, ht2, hf3⟩
    rw [List.foldl_cons, ← hr', ← hr, ← bind_assoc]
    obtain ⟨tk, num, lid⟩ := st
    simp only at e1
    subst e1
    show Reader.run stod (.next false _) s = _
    rw [Reader.run, hl1]
    show ((((if name = "debug_source".toList then _ else _ : Pars Infos) (advance _ (.id name))).bind _)).run stod s1 = _
    rw [if_neg hns]
    show _ = ((((next >>= fun _ => section' n name u) >>= fun v => sections n f v) (advance _ (.id name))).bind g).run stod s1
    congr 1

theorem spells_ne_eof {stod : Str → Except Err Word} {t : Tok} {w : Str} (h : Spells stod t w) : t ≠ .eof := by
  cases h with
  | symbol h => rintro rfl; cases h
  | _ => intro h; cases h

theorem opening_ne_eof {stod : Str → Except Err Word} {ts : List Tok} {s rest : Str} (h : Opening stod ts s rest) : .eof ∉ ts := by
  induction h with
  | nil => simp
  | cons hg hw hr hs ih =>
    simp only [List.mem_cons, not_or]
    exact ⟨fun h => spells_ne_eof hw h.symm, ih⟩

theorem layout_ne_eof {stod : Str → Except Err Word} {ts : List Tok} {s : Str} (h : Layout stod ts s) : .eof ∉ ts := by
  induction h with
  | nil => simp
  | cons hg hw hr hs ih =>
    simp only [List.mem_cons, not_or]
    exact ⟨fun h => spells_ne_eof hw h.symm, ih⟩

theorem opening_length {stod : Str → Except Err Word} {ts : List Tok} {s rest : Str} (h : Opening stod ts s rest) :
    ts.length ≤ s.length := by
  induction h with
  | nil => simp
  | cons hg hw hr hs ih =>
    have := List.length_pos_iff.2 (Lexer.spells_cons hw)
    simp only [List.length_cons, List.length_append]
    omega

theorem foldl_addPart (l : List Part) (u : Infos) : l.foldl addPart u =
    ⟨((l.filterMap Part.table).getLast?.map LineMapping.ofEntries).or u.lines, (l.filterMap Part.die).getLast?.or u.top, u.source⟩ := by
  induction l generalizing u with
  | nil => rfl
  | cons p l ih =>
    rw [List.foldl_cons, ih]
    cases p with
    | code x => rfl
    | other n => rfl
    | lines t =>
      simp only [List.filterMap_cons, Part.table, Part.die, addPart, List.getLast?_cons]
      cases (l.filterMap Part.table).getLast? <;> rfl
    | info d =>
      simp only [List.filterMap_cons, Part.table, Part.die, addPart, List.getLast?_cons]
      cases (l.filterMap Part.die).getLast? <;> rfl

theorem parse_eq {stod : Str → Except Err Word} {l : List Part} {src : Option Str} {s : Str} (h : FileSyn stod l src s) :
    Info.parse stod s = .ok ⟨(l.filterMap Part.table).getLast?.map .ofEntries, (l.filterMap Part.die).getLast?, src.map sourceLines⟩ := by
  unfold Info.parse
  generalize hN : 2 * s.length + 2 = N
  cases h with
  | @plain ts l s h hs =>
    have hlen := hs.length
    have hfd := hs.feeds
    obtain ⟨t0, q, e⟩ : ∃ t0 q, ts ++ [Tok.eof, .eof] = t0 :: q := by cases ts <;> simp
    rw [e] at hfd
    obtain ⟨s1, hl1, hf1⟩ := hfd.lex false
    obtain ⟨f', st', s', hr, ht, hf⟩ := run_sections N (fun r => Reader.pure r.1) h (layout_ne_eof hs) (by omega) N {}
      (advance ⟨.eof, -1, []⟩ t0) q .eof [.eof] s1 [] (by omega) e.symm (num_advance _ _) (Or.inr rfl) (by simp) hf1
    unfold start
    rw [Reader.run, hl1]
    refine Eq.trans hr ?_
    obtain ⟨tk, num, lid⟩ := st'
    simp only at ht
    subst ht
    show Except.ok (l.foldl addPart {}) = _
    rw [foldl_addPart]
    simp
  | @source ts l c text s h hs =>
    have hlen := opening_length hs
    have hfd := hs.feeds
    obtain ⟨t0, q, e⟩ : ∃ t0 q, ts ++ [Tok.dot, .id "debug_source".toList] = t0 :: q := by cases ts <;> simp
    rw [e] at hfd
    obtain ⟨s1, hl1, hf1⟩ := hfd.lex false
    have hne := opening_ne_eof hs
    obtain ⟨f', st', s', hr, ht, hf⟩ := run_sections N (fun r => Reader.pure r.1) h (fun hh => hne (by simp [hh]))
      (by simp at hlen; omega) N {} (advance ⟨.eof, -1, []⟩ t0) q .dot [.id "debug_source".toList] s1 (c :: text)
      (by simp at hlen; omega) e.symm (num_advance _ _) (Or.inl rfl) (by simp) hf1
    unfold start
    rw [Reader.run, hl1]
    refine Eq.trans hr ?_
    obtain ⟨tk, num, lid⟩ := st'
    simp only at ht
    subst ht
    obtain ⟨s2, hl2, hf2⟩ := hf.lex false
    have : s2 = c :: text := by cases hf2; rfl
    subst this
    show Reader.run stod (.next false _) s' = _
    rw [Reader.run, hl2]
    show Except.ok { l.foldl addPart {} with source := some (sourceLines text) } = _
    rw [foldl_addPart]
    simp

theorem read_eq {stod : Str → Except Err Word} {l : List Part} {src : Option Str} {s : Str} (h : FileSyn stod l src s) :
    Info.read stod s = .ok ⟨(l.filterMap Part.table).getLast?.map .ofEntries, (l.filterMap Part.die).getLast?, src.map sourceLines⟩ := by
  have hp := parse_eq h
  obtain ⟨p, hl⟩ := Pars.lex_of_start hp
  unfold Info.read
  rw [hl]
  exact hp

end Info
end T86
