import Verif.Spec.Cli
import Verif.Props.Str
import Verif.Lemmas.Space
import Verif.Lemmas.Ask

/-! Lines and words, and what the commands keep. -/

namespace T86
open Dbg Str
namespace Cli

/-! ## Lines -/

theorem splitOnP_word : ∀ (w : Str) (r : Str), (∀ c ∈ w, isSpace c = false) →
    (w ++ ' ' :: r).splitOnP isSpace = w :: r.splitOnP isSpace
  | [], r, _ => by rw [List.nil_append, List.splitOnP_cons_eq_if_modifyHead]; rfl
  | c :: w, r, hw => by
    rw [List.cons_append, List.splitOnP_cons_eq_if_modifyHead, hw c (.head _), splitOnP_word w r fun d hd => hw d (.tail _ hd)]
    rfl

theorem splitOnP_last : ∀ (w : Str), (∀ c ∈ w, isSpace c = false) → w.splitOnP isSpace = [w]
  | [], _ => rfl
  | c :: w, hw => by
    rw [List.splitOnP_cons_eq_if_modifyHead, hw c (.head _), splitOnP_last w fun d hd => hw d (.tail _ hd)]
    rfl

theorem words_word {w : Str} (hw : IsWord w) (r : Str) : words (w ++ ' ' :: r) = w :: words r := by
  unfold words
  rw [splitOnP_word w r hw.2]
  have := hw.1
  cases w with
  | nil => exact absurd rfl this
  | cons c w => rfl

theorem words_last {w : Str} (hw : IsWord w) : words w = [w] := by
  unfold words
  rw [splitOnP_last w hw.2]
  have := hw.1
  cases w with
  | nil => exact absurd rfl this
  | cons c w => rfl

theorem line_cons (w : Str) {ws : List Str} (hw : ws ≠ []) : line (w :: ws) = w ++ ' ' :: line ws := by
  cases ws with
  | nil => exact absurd rfl hw
  | cons v ws => simp [line, List.intercalate, List.intersperse]

theorem line_single (w : Str) : line [w] = w := by simp [line, List.intercalate]

theorem line_nil : line [] = [] := by simp [line, List.intercalate]

theorem line_ne_nil {ws : List Str} (h : ∀ w ∈ ws, IsWord w) (hn : ws ≠ []) : line ws ≠ [] := by
  cases ws with
  | nil => exact absurd rfl hn
  | cons w ws =>
    have := (h w (.head _)).1
    cases ws with
    | nil => rw [line_single]; exact this
    | cons v ws => rw [line_cons w (by simp)]; simp

theorem words_line : ∀ (ws : List Str), (∀ w ∈ ws, IsWord w) → words (line ws) = ws
  | [], _ => rfl
  | [w], h => by rw [line_single, words_last (h w (.head _))]
  | w :: v :: ws, h => by
    rw [line_cons w (by simp), words_word (h w (.head _)), words_line (v :: ws) fun x hx => h x (.tail _ hx)]

theorem tidy_tail {w r : Str} (h : Tidy (w ++ ' ' :: r)) : Tidy r ∧ r ≠ [] := by
  refine ⟨⟨fun c t e => ?_, fun c t e => ?_, fun a b t u e => ?_⟩, fun e => ?_⟩
  · exact h.2.2 ' ' c w t (by rw [e]) rfl
  · exact h.2.1 c (w ++ ' ' :: t) (by rw [e]; simp)
  · exact h.2.2 a b (w ++ ' ' :: t) u (by rw [e]; simp)
  · have := h.2.1 ' ' w (by rw [e])
    cases this

theorem tidy_line (n : Nat) : ∀ (s : Str), s.length ≤ n → Tidy s → (∀ c ∈ s, isSpace c = true → c = ' ') → line (words s) = s := by
  induction n with
  | zero =>
    intro s hs _ _
    have : s = [] := List.eq_nil_of_length_eq_zero (by omega)
    subst this
    exact line_nil
  | succ n ih =>
    intro s hs ht hb
    by_cases hn : s = []
    · subst hn
      exact line_nil
    · rcases word_cases s with h | ⟨w, r, rfl, hw⟩
      · have hw : IsWord s := ⟨hn, fun c hc => by
          cases hx : isSpace c with
          | false => rfl
          | true =>
            have := hb c hc hx
            subst this
            exact absurd hc h⟩
        rw [words_last hw, line_single]
      · obtain ⟨h1, h2⟩ := tidy_tail ht
        have hw : IsWord w := by
          refine ⟨fun e => ?_, fun c hc => ?_⟩
          · subst e
            have := ht.1 ' ' r rfl
            cases this
          · cases hx : isSpace c with
            | false => rfl
            | true =>
              have := hb c (by simp [hc]) hx
              subst this
              exact absurd hc hw
        have hr := ih r (by simp at hs; omega) h1 fun c hc => hb c (by simp [hc])
        rw [words_word hw, line_cons, hr]
        intro e
        rw [e, line_nil] at hr
        exact h2 hr.symm

theorem squash_mem : ∀ (s : Str) (b : Bool) (c : Char), c ∈ squash b s → c ∈ s := by
  intro s
  induction s with
  | nil => intro b c h; simp [squash] at h
  | cons d s ih =>
    intro b c h
    unfold squash at h
    split at h
    · rcases List.mem_cons.1 h with rfl | h
      · exact .head _
      · exact .tail _ (ih _ _ h)
    · split at h
      · rcases List.mem_cons.1 h with rfl | h
        · exact .head _
        · exact .tail _ (ih _ _ h)
      · exact .tail _ (ih _ _ h)

theorem squashStrip_mem {s : Str} {c : Char} (h : c ∈ squashStrip s) : c ∈ s := by
  unfold squashStrip at h
  have h1 := squash_mem _ _ _ h
  have h2 := List.dropWhile_sublist (l := (s.reverse.dropWhile isSpace).reverse) isSpace |>.subset h1
  have h3 := List.mem_reverse.1 h2
  exact List.mem_reverse.1 ((List.dropWhile_sublist isSpace).subset h3)

theorem squash_line {raw : Str} (hb : ∀ c ∈ raw, isSpace c = true → c = ' ') : squashStrip raw = line (words raw) := by
  have h1 := tidy_line _ (squashStrip raw) (Nat.le_refl _) (C25_squash_tidy raw) fun c hc => hb c (squashStrip_mem hc)
  rw [C25_squash_words] at h1
  exact h1.symm

theorem line_blank : ∀ (ws : List Str), (∀ w ∈ ws, IsWord w) → ∀ c ∈ line ws, isSpace c = true → c = ' '
  | [], _, c, hc, _ => by rw [line_nil] at hc; cases hc
  | [w], h, c, hc, hs => by
    rw [line_single] at hc
    rw [(h w (.head _)).2 c hc] at hs
    cases hs
  | w :: v :: ws, h, c, hc, hs => by
    rw [line_cons w (by simp), List.mem_append, List.mem_cons] at hc
    rcases hc with hc | rfl | hc
    · rw [(h w (.head _)).2 c hc] at hs
      cases hs
    · rfl
    · exact line_blank (v :: ws) (fun x hx => h x (.tail _ hx)) c hc hs

theorem squash_words_line {ws : List Str} (h : ∀ w ∈ ws, IsWord w) : squashStrip (line ws) = line ws := by
  rw [squash_line (line_blank ws h), words_line ws h]

theorem IsWord.noBlank {w : Str} (h : IsWord w) : ' ' ∉ w := fun hc => by
  have := h.2 ' ' hc
  cases this

theorem takeWhile_all {p : Char → Bool} : ∀ {w : Str}, (∀ c ∈ w, p c = true) → w.takeWhile p = w
  | [], _ => rfl
  | c :: w, h => by rw [List.takeWhile_cons, if_pos (h c (.head _)), takeWhile_all fun d hd => h d (.tail _ hd)]

theorem dropWhile_all {p : Char → Bool} : ∀ {w : Str}, (∀ c ∈ w, p c = true) → w.dropWhile p = []
  | [], _ => rfl
  | c :: w, h => by rw [List.dropWhile_cons, if_pos (h c (.head _)), dropWhile_all fun d hd => h d (.tail _ hd)]

theorem firstWord_line {w : Str} (hw : IsWord w) (ws : List Str) : firstWord (line (w :: ws)) = (w, line ws) := by
  unfold firstWord
  have hp : ∀ c ∈ w, (c != ' ') = true := fun c hc => by
    have := hw.noBlank
    simp only [bne_iff_ne, ne_eq]
    rintro rfl
    exact this hc
  cases ws with
  | nil =>
    rw [line_single, line_nil, takeWhile_all hp, dropWhile_all hp]
    rfl
  | cons v ws =>
    rw [line_cons w (by simp), List.takeWhile_append_of_pos hp, List.dropWhile_append_of_pos hp]
    simp

theorem split_line {ws : List Str} (h : ∀ w ∈ ws, IsWord w) : split (line ws) ' ' = ws := by
  have := C25_split_join ' ' ws fun w hw => ⟨(h w hw).1, (h w hw).noBlank⟩
  rw [C25_join] at this
  exact this

/-- What becomes of an error. -/
def caught (r : Except Err Unit × Cli) : Except Err Unit × Cli :=
  match r with
  | (.error .debugger, s') => put .error s'
  | r => r

theorem typed_eq (e : Env) {raw : Str} (h : squashStrip raw ≠ []) (s : Cli) : typed e raw s = caught (handle e (squashStrip raw) s) := by
  have : typed e raw = fun s => caught (handle e (squashStrip raw) s) := by
    unfold typed
    exact if_neg h
  rw [this]

theorem typed_nil (e : Env) {raw : Str} (h : squashStrip raw = []) (s : Cli) : typed e raw s = (.ok (), s) := by
  have : typed e raw = pure () := by
    unfold typed
    exact if_pos h
  rw [this]
  rfl

theorem performIfActive_eq (e : Env) (k : Option Command) (l : Str) {s : Cli} (hp : s.process.isSome) :
    performIfActive e k l s = perform e k l s := by
  unfold performIfActive
  refine (Job.bind_eq (x := Job.get) (a := s) (t := s) rfl).trans ?_
  rw [if_pos hp]

theorem handle_eq (e : Env) {l : Str} {k : Option Command} (hk : dispatch (firstWord l).1 = k) (h1 : k ≠ some .run) (h2 : k ≠ some .attach)
    (h3 : k ≠ some .help) : handle e l = performIfActive e k (firstWord l).2 := by
  unfold handle
  simp only [hk]

theorem digit_not_space {c : Char} (h : isDigit c = true) : isSpace c = false := by
  cases hs : isSpace c with
  | false => rfl
  | true =>
    unfold isSpace at hs
    simp only [Bool.or_eq_true, beq_iff_eq] at hs
    rcases hs with ((((rfl | rfl) | rfl) | rfl) | rfl) | rfl <;> exact absurd h (by decide)

theorem isWord_ofNat (n : Nat) : IsWord (ofNat n) := ⟨ofNat_ne_nil n, fun c hc => digit_not_space (ofNat_isDigit n c hc)⟩

theorem isWord_ofInt (n : Int) : IsWord (ofInt n) := by
  unfold ofInt
  split
  · refine ⟨by simp, fun c hc => ?_⟩
    rcases List.mem_cons.1 hc with rfl | hc
    · decide
    · exact (isWord_ofNat _).2 c hc
  · exact isWord_ofNat _

theorem unsigned_ofNat {n : Nat} (h : n < 2 ^ 64) : toUnsigned (ofNat n) = some n := by
  have := toUnsigned_ofNat n h [] (by intro c t hc; cases hc)
  rwa [List.append_nil] at this

theorem signed_ofInt (w : Word) : toSigned (ofInt w.toInt) = some w.toInt := by
  have := toSigned_ofInt w.toInt ⟨by have := BitVec.le_toInt w; omega, by have := BitVec.toInt_lt (x := w); omega⟩ [] (by intro c t hc; cases hc)
  rwa [List.append_nil] at this

theorem readBlock_eq {rest : List Str} : ∀ {l : List Str} (_ : ∀ x ∈ l, x ≠ []), readBlock (l ++ [] :: rest) = (.ok l, rest)
  | [], _ => rfl
  | x :: l, hl => by
    change readBlock (x :: (l ++ [] :: rest)) = _
    unfold readBlock
    rw [if_neg (hl x (List.mem_cons_self ..)), readBlock_eq fun y hy => hl y (List.mem_cons_of_mem _ hy)]

/-- A line of words. -/
theorem typed_line (e : Env) {w : Str} {ws : List Str} (hw : IsWord w) (h : ∀ v ∈ ws, IsWord v) {k : Option Command}
    (hk : dispatch w = k) (h1 : k ≠ some .run) (h2 : k ≠ some .attach) (h3 : k ≠ some .help) {s : Cli} (hp : s.process.isSome) :
    typed e (line (w :: ws)) s = caught (perform e k (line ws) s) := by
  have hm : ∀ v ∈ w :: ws, IsWord v := fun v hv => by
    rcases List.mem_cons.1 hv with rfl | hv
    · exact hw
    · exact h v hv
  have hf := firstWord_line hw ws
  rw [typed_eq e (by rw [squash_words_line hm]; exact line_ne_nil hm (by simp)), squash_words_line hm,
    handle_eq e (by rw [hf]; exact hk) h1 h2 h3, performIfActive_eq e k _ hp, hf]

end Cli
end T86
