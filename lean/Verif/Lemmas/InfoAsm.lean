import Verif.Lemmas.InfoRead

/-! # Assembling a file with debugging information -/

set_option linter.unusedSimpArgs false
set_option linter.unusedVariables false

namespace T86
open Dbg Str

/-- What a reader makes of some tokens without looking at what follows, it makes of a text that begins with them. -/
theorem Reader.left_run_exact {α β : Type} {stod : Str → Except Err Word} (x : Reader α) (f : α → Reader β) {l extra : List Tok}
    {a : α} {s tail : Str} (h : x.left (l ++ extra) = .ok (a, extra)) (hne : extra ≠ []) (hf : Feeds stod l s tail) :
    (x.bind f).run stod s = (f a).run stod tail := by
  induction x generalizing l s with
  | pure b =>
    have : l = [] := by
      have h' : Except.ok (b, l ++ extra) = Except.ok (ε := Err) (a, extra) := by
        rw [← h]; cases l ++ extra <;> rfl
      injection h' with h'
      injection h' with _ h'
      simpa using h'
    subst this
    have hb : b = a := by
      have h' : Except.ok (b, extra) = Except.ok (ε := Err) (a, extra) := by
        rw [← h]; cases extra <;> rfl
      injection h' with h'
      injection h'
    cases hf
    subst hb
    rfl
  | fail e =>
    have h' : Except.error e = Except.ok (ε := Err) (a, extra) := by rw [← h]; cases l ++ extra <;> rfl
    cases h'
  | next i k ih =>
    cases l with
    | nil =>
      cases extra with
      | nil => exact absurd rfl hne
      | cons t q =>
        have := left_length (k t) (l := q) h
        simp at this
    | cons t l =>
      obtain ⟨s1, h1, h2⟩ := hf.lex i
      have := ih t h h2
      show Reader.run stod (.next i fun t => (k t).bind f) s = _
      rw [Reader.run, h1]
      exact this
  | raw k ih =>
    have h' : Except.error .parser = Except.ok (ε := Err) (a, extra) := by rw [← h]; cases l ++ extra <;> rfl
    cases h'

theorem Layout.feedsOne {stod : Str → Except Err Word} {ts : List Tok} {s : Str} (h : Layout stod ts s) :
    Feeds stod (ts ++ [.eof]) s [] := by
  induction h with
  | nil h => exact .eof (s := []) h (.nil _)
  | cons hg hw hr hs ih => exact .cons hg hw ih hs

namespace Asm
open Pars

theorem parses_skip : ∀ (fuel : Nat) (ts : List Tok), .dot ∉ ts → .eof ∉ ts → ts.length < fuel →
    Parses (skipSection fuel) ts () ends
  | 0, _, _, _, h => by omega
  | fuel + 1, [], _, _, _ => by
    unfold skipSection
    refine Parses.tokNil ?_
    rintro t (rfl | rfl) <;> rfl
  | fuel + 1, t :: ts, h1, h2, h => by
    unfold skipSection
    have ih := parses_skip fuel ts (by simp_all) (by simp_all) (by simp at h; omega)
    refine Parses.tok ?_
    split
    · simp at h1
    · simp at h2
    · exact Parses.next ih

/-! The tokens of debugging information have no dots. -/

theorem items_nodot {α : Type} {sep : Tok} (hs : sep ≠ .dot) {P : List Tok → α → Prop} (hP : ∀ ts a, P ts a → .dot ∉ ts)
    {ts : List Tok} {l : List α} (h : Items sep P ts l) : .dot ∉ ts := by
  induction h with
  | nil => simp
  | last h => exact hP _ _ h
  | cons h hl ih => simp [hP _ _ h, ih, hs.symm]

theorem offset_nodot {ts : List Tok} {w : Word} (h : OffsetSyn ts w) : .dot ∉ ts := by cases h <;> simp

theorem loc_nodot {ts : List Tok} {i : LocIns} (h : LocSyn ts i) : .dot ∉ ts := by
  cases h with
  | base h => simp [offset_nodot h]
  | pushNum h => simp [offset_nodot h]
  | _ => simp

theorem program_nodot {ts : List Tok} {l : List LocIns} (h : ProgramSyn ts l) : .dot ∉ ts := by
  cases h with
  | none => simp
  | one h => simp [loc_nodot h]
  | many h => simp [items_nodot (by simp) (fun _ _ => loc_nodot) h]

theorem attr_nodot {ts : List Tok} {a : Attr} (h : AttrSyn ts a) : .dot ∉ ts := by
  cases h with
  | members h => simp [items_nodot (by simp) (fun _ _ (h : MemberSyn _ _) => by cases h; simp) h]
  | location h => simp [program_nodot h]
  | _ => simp

mutual
theorem die_nodot : ∀ {ts : List Tok} {d : Die}, DieSyn ts d → .dot ∉ ts
  | _, _, .mk hn h => by simp [body_nodot h]
theorem body_nodot : ∀ {ts : List Tok} {as : List Attr} {ds : List Die}, BodySyn ts as ds → .dot ∉ ts
  | _, _, _, .nil => by simp
  | _, _, _, .lastAttr h => attr_nodot h
  | _, _, _, .lastDie h => die_nodot h
  | _, _, _, .attr h hb => by simp [attr_nodot h, body_nodot hb]
  | _, _, _, .die h hb => by simp [die_nodot h, body_nodot hb]
end

theorem size_le (x : Sect) : Sect.size x ≤ (Info.sectRest x).length := by
  cases x with
  | text l =>
    show l.length ≤ (l.map fun x => (x.1.toList.map Tok.num) ++ x.2.toks).flatten.length
    induction l with
    | nil => simp
    | cons y l ih =>
      obtain ⟨t, q, e, _⟩ := lineToks_head y
      have : 0 < ((y.1.toList.map Tok.num) ++ y.2.toks).length := by
        show 0 < (lineToks y).length
        rw [e]; simp
      rw [List.map_cons, List.flatten_cons, List.length_append, List.length_cons]
      omega
  | data l =>
    show l.length ≤ (l.map DataItem.toks).flatten.length
    induction l with
    | nil => simp
    | cons y l ih =>
      obtain ⟨t, q, e⟩ := item_head y
      have : 0 < y.toks.length := by rw [e]; simp
      rw [List.map_cons, List.flatten_cons, List.length_append, List.length_cons]
      omega

/-- The part can be read by the assembler. -/
def PartOk : Part → Prop
  | .code x => SectOk x
  | _ => True

theorem parses_part {ts : List Tok} {p : Part} (h : PartSyn ts p) (he : .eof ∉ ts) (hp : PartOk p) {k : Nat} (hk : ts.length < k)
    (u : Unit') : ∃ name q, ts = .dot :: .id name :: q ∧ name ≠ "debug_source".toList ∧
      Parses (section' k u) (.id name :: q) ⟨u.program ++ p.instrs, u.data ++ p.cells⟩ ends := by
  have skip : ∀ {name : Str} {q : List Tok}, name ≠ "text".toList → name ≠ "data".toList → .dot ∉ q → .eof ∉ q →
      q.length < k → Parses (section' k u) (.id name :: q) ⟨u.program ++ [], u.data ++ []⟩ ends := by
    intro name q h1 h2 h3 h4 h5
    unfold section'
    refine Parses.tok (Parses.next ?_)
    rw [if_neg h1, if_neg h2, List.append_nil, List.append_nil]
    exact Info.parses_map (fun _ => u) (parses_skip k q h3 h4 h5)
  cases h with
  | code x =>
    rw [Info.sect_split] at hk
    refine ⟨_, _, Info.sect_split x, (Info.sectName_ne x).1, ?_⟩
    have h1 := size_le x
    simp only [List.length_cons] at hk
    have := parses_section (u := u) (x := x) (fuel := k) (by omega) hp
    have e : sectTail x = .id (Info.sectName x) :: Info.sectRest x := by cases x <;> rfl
    rw [e] at this
    exact this
  | lines l =>
    refine ⟨_, _, rfl, by decide, skip (by decide) (by decide) ?_ (by simp) (by simp only [List.length_cons] at hk; omega)⟩
    simp
  | info h =>
    exact ⟨_, _, rfl, by decide, skip (by decide) (by decide) (die_nodot h) (by simp at he; exact he)
      (by simp only [List.length_cons] at hk; omega)⟩
  | empty => exact ⟨_, _, rfl, by decide, skip (by decide) (by decide) (by simp) (by simp) (by simp at hk; simp; omega)⟩
  | other hm ht =>
    simp only [List.map_cons, List.map_nil, List.mem_cons, List.not_mem_nil, or_false, not_or] at hm
    exact ⟨_, _, rfl, hm.2.2.2.2, skip hm.1 hm.2.1 ht (by simp at he; exact he) (by simp only [List.length_cons] at hk; omega)⟩

theorem parses_parts {k : Nat} {fin : List Tok} {look : Tok → Prop} (hfin : ∀ fuel u, Parses (sections k (fuel + 1) u) fin u look)
    (hd : Head fin ends look) {ts : List Tok} {l : List Part} (h : PartsSyn ts l) (he : .eof ∉ ts) (hk : ts.length < k)
    (hp : ∀ p ∈ l, PartOk p) : ∀ (fuel : Nat) (u : Unit'), ts.length < fuel →
    Parses (sections k fuel u) (ts ++ fin) ⟨u.program ++ (l.map Part.instrs).flatten, u.data ++ (l.map Part.cells).flatten⟩ look := by
  induction h with
  | nil =>
    intro fuel u hf
    obtain ⟨f, rfl⟩ : ∃ f, fuel = f + 1 := ⟨fuel - 1, by simp at hf; omega⟩
    simpa using hfin f u
  | @cons ts us p l h hl ih =>
    intro fuel u hf
    simp only [List.length_append] at hk hf
    obtain ⟨f, rfl⟩ : ∃ f, fuel = f + 1 := ⟨fuel - 1, by omega⟩
    obtain ⟨name, q, rfl, hns, hs⟩ := parses_part h (fun hh => he (by simp [hh])) (hp p (by simp)) (k := k) (by omega) u
    simp only [List.length_cons] at hf
    have ih' := ih (fun hh => he (by simp [hh])) (by omega) (fun x hx => hp x (by simp [hx])) f
      ⟨u.program ++ p.instrs, u.data ++ p.cells⟩ (by omega)
    have hb := hs.bind (f := fun u => sections k f u) ih' (by
      cases hl with
      | nil => exact hd
      | cons h' hl' =>
        obtain ⟨t', r', e, ht⟩ := Info.part_head (.cons h' hl') .dot (Or.inl rfl) []
        rename_i ts' us' p' l'
        have hne : ∃ z, ts' ++ us' = .dot :: z := by
          cases h' with
          | code x => exact ⟨_, by rw [Info.sect_split]; rfl⟩
          | _ => exact ⟨_, rfl⟩
        obtain ⟨z, hz⟩ := hne
        rw [hz]
        exact Or.inl rfl)
    unfold sections
    rw [List.append_assoc]
    refine Parses.tok (Parses.next ?_)
    refine Parses.tok ?_
    rw [if_neg (by intro hh; injection hh with hh; exact hns hh)]
    simpa using hb

theorem start_run {stod : Str → Except Err Word} {α : Type} {x : Pars α} {ts : List Tok} {a : α} {look : Tok → Prop} {t : Tok}
    {s tail : Str} (h : Parses x ts a look) (ht : look t) (hf : Feeds stod (ts ++ [t]) s tail) :
    (Pars.start x).run stod s = .ok a := by
  obtain ⟨u, q, e⟩ : ∃ u q, ts ++ [t] = u :: q := by cases ts <;> simp
  rw [e] at hf
  obtain ⟨s1, h1, h2⟩ := hf.lex false
  obtain ⟨s', hx, _, _⟩ := h (advance ⟨.eof, -1, []⟩ u) (q ++ [.eof]) t [.eof] (by
    show u :: (q ++ [.eof]) = _
    rw [← List.cons_append, ← e]; simp) (num_advance _ _) ht
  unfold start
  rw [Reader.run, h1]
  have := Reader.left_run_exact _ (fun r => Reader.pure r.1) hx (by simp) h2
  exact this

theorem assemble_file {stod : Str → Except Err Word} {l : List Part} {src : Option Str} {s : Str} (h : FileSyn stod l src s)
    (hne : l ≠ [] ∨ src ≠ none) (hp : ∀ p ∈ l, PartOk p) :
    assemble stod s = .ok ⟨(l.map Part.instrs).flatten, (l.map Part.cells).flatten⟩ := by
  unfold assemble
  generalize hN : 2 * s.length + 2 = N
  have key : ∀ {ts fin : List Tok} {look : Tok → Prop}, (∃ z, ts ++ fin = .dot :: z) → (∀ fuel u, Parses (sections N (fuel + 1) u) fin u look) →
      Head fin ends look → PartsSyn ts l → .eof ∉ ts → ts.length < N →
      Parses (parse N) (ts ++ fin) ⟨(l.map Part.instrs).flatten, (l.map Part.cells).flatten⟩ look := by
    intro ts fin look hz h1 h2 h3 h4 h5
    have := parses_parts h1 h2 h3 h4 h5 hp N ⟨[], []⟩ h5
    obtain ⟨z, hz⟩ := hz
    unfold parse
    rw [hz] at this ⊢
    exact Parses.tok (by simpa using this)
  cases h with
  | @plain ts l s h hs =>
    have hlen := hs.length
    have hz : ∃ z, ts ++ [] = .dot :: z := by
      cases h with
      | nil => simp at hne
      | cons h' hl' =>
        cases h' with
        | code x => exact ⟨_, by rw [Info.sect_split]; rfl⟩
        | _ => exact ⟨_, rfl⟩
    have hP := key (fin := []) (look := fun t => t = .eof) hz (by
      intro fuel u
      unfold sections
      rintro st q t rest e hn rfl
      simp only [List.nil_append, List.cons.injEq] at e
      obtain ⟨tk, num, lid⟩ := st
      obtain ⟨e1, e2⟩ := e
      simp only at e1
      subst e1 e2
      exact ⟨⟨.eof, num, lid⟩, by cases q <;> rfl, rfl, hn⟩) (by intro t ht; exact Or.inr ht) h (Info.layout_ne_eof hs) (by omega)
    rw [List.append_nil] at hP
    exact start_run hP rfl (tail := []) hs.feedsOne
  | @source ts l c text s h hs =>
    have hlen := Info.opening_length hs
    have hne' := Info.opening_ne_eof hs
    have hz : ∃ z, ts ++ [.dot] = .dot :: z := by
      cases h with
      | nil => exact ⟨_, rfl⟩
      | cons h' hl' =>
        cases h' with
        | code x => exact ⟨_, by rw [Info.sect_split]; rfl⟩
        | _ => exact ⟨_, rfl⟩
    have hP := key (fin := [.dot]) (look := fun t => t = .id "debug_source".toList) hz (by
      intro fuel u
      unfold sections
      refine Parses.tok (Parses.next (Parses.tokNil ?_))
      rintro t rfl
      rw [if_pos rfl]) (Or.inl rfl) h (fun hh => hne' (by simp [hh])) (by simp at hlen; omega)
    refine start_run hP rfl (tail := c :: text) ?_
    have := hs.feeds
    simpa using this

end Asm
end T86
