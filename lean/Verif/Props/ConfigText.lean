import Verif.Lemmas.ConfigText
import Verif.Props.InputSections

/-
C118: the text of the input file.
-/

namespace Bdld
open Spec

/-! ### Single lines -/

/-- **C118.** A comment changes nothing, wherever it is. -/
theorem comment_line (st : ReadState) {l : List Char} (h : CfgComment l) : st.line l = .ok st := by
  obtain ⟨s, c, rest, rfl, hs, hc⟩ := h
  have hv : pySpace c = false := by rcases hc with rfl | rfl <;> decide
  obtain ⟨t, ht⟩ := rstrip_cons rest hv
  have : strip (s ++ c :: rest) = c :: t := by rw [strip, lstrip_white hs, lstrip_cons hv, ht]
  rw [ReadState.line, this]
  simp only
  rw [if_pos hc]

theorem open_some {st : ReadState} {sec key : String} (h : st.open? = some (sec, key)) : st.cur = some sec ∧ st.opt = some key := by
  unfold ReadState.open? at h
  split at h
  · rename_i h1 h2
    split at h
    · cases h
    · cases h
      exact ⟨h1, h2⟩
  · cases h

theorem blank_line (st : ReadState) (hf : st.Fine) {l : List Char} (h : CfgBlank l) :
    ∃ st', st.line l = .ok st' ∧ st'.Fine ∧ st'.view = st.view ∧ st'.cur = st.cur ∧ st'.failed = st.failed := by
  rw [ReadState.line, strip_white h]
  simp only
  cases ho : st.open? with
  | none => exact ⟨st, rfl, hf, rfl, rfl, rfl⟩
  | some p =>
    obtain ⟨sec, key⟩ := p
    obtain ⟨h1, h2⟩ := open_some ho
    obtain ⟨d, h3, h4⟩ := hf.cur sec h1
    obtain ⟨v, h5⟩ := h4 key h2
    have hcont : st.content sec = d := by rw [ReadState.content, h3]; rfl
    refine ⟨_, rfl, ⟨fun sec' hs => ?_⟩, ?_, rfl, rfl⟩
    · obtain rfl : sec = sec' := Option.some.inj (h1.symm.trans hs)
      refine ⟨_, by rw [ReadState.append, Dict.get?_set, if_pos rfl], fun key' hk => ?_⟩
      obtain rfl : key = key' := Option.some.inj (h2.symm.trans hk)
      exact ⟨_, by rw [Dict.get?_set, if_pos rfl]⟩
    · rw [ReadState.append, ReadState.view, hcont, Dict.set_map]
      have hd : cleaned (d.set key ((d.get? key).getD [] ++ [[]])) = cleaned d := by
        unfold cleaned
        rw [Dict.set_map, h5, Option.getD_some, joinLines_blank]
        exact Dict.set_self _ _ _ (by rw [show (Dict.get? (List.map (fun p => (p.1, joinLines p.2)) d) key) = _ from cleaned_get d key, h5]; rfl)
      rw [hd]
      exact Dict.set_self _ _ _ (by rw [show Dict.get? (List.map (fun p => (p.1, cleaned p.2)) st.sections) sec = _ from view_get st sec, h3]; rfl)

/-- A line without indentation is a new line. -/
theorem flush_line (st : ReadState) {l value : List Char} {c : Char} (hs : strip l = c :: value) (hc : c ≠ '#' ∧ c ≠ ';')
    (ht : l.takeWhile pySpace = []) : st.line l = { st with indent := 0 }.newLine (c :: value) := by
  rw [ReadState.line, hs]
  simp only [ht, List.length_nil, not_lt_zero, gt_iff_lt, if_false]
  rw [if_neg (by simp [hc])]
  cases st.open? <;> rfl

theorem sectionName_header {name : List Char} (h : name ≠ []) : sectionName ('[' :: name ++ [']']) = some name := by
  rw [List.cons_append, sectionName, List.reverse_append, List.reverse_singleton, List.singleton_append,
    List.dropWhile_cons_of_neg (by simp), List.tail_cons, List.reverse_reverse]
  cases name with
  | nil => exact absurd rfl h
  | cons c l => rfl

theorem header_line (st : ReadState) {name : String} {l : List Char} (h : CfgHeader name l) :
    st.line l = if name = "DEFAULT" then .ok { st with indent := 0, cur := some name, opt := none }
      else if (st.sections.get? name).isSome then .error .configError
      else .ok { st with indent := 0, sections := st.sections ++ [(name, [])], cur := some name, opt := none } := by
  obtain ⟨s, rfl, hs, hne, hb⟩ := h
  have htrim : Trimmed ('[' :: name.toList ++ [']']) := by
    refine ⟨fun c hc => ?_, fun c hc => ?_⟩
    · cases hc; exact ⟨by decide, by decide⟩
    · rw [List.getLast?_append] at hc
      cases hc; exact ⟨by decide, by decide⟩
  have hl : '[' :: name.toList ++ ']' :: s = [] ++ ('[' :: name.toList ++ [']']) ++ s := by simp
  have h1 : strip ('[' :: name.toList ++ ']' :: s) = '[' :: (name.toList ++ [']']) := by
    rw [hl, strip_trimmed (by simp [White]) hs htrim]
    rfl
  have h2 : ('[' :: name.toList ++ ']' :: s).takeWhile pySpace = [] := by
    rw [hl, List.nil_append, takeWhile_trimmed htrim (by simp)]
  rw [flush_line st h1 (by decide) h2, ReadState.newLine, ← List.cons_append, sectionName_header (by
    intro e
    exact hne (String.toList_inj.1 (by simpa using e)))]
  simp only [String.ofList_toList]

theorem span_delim {k r : List Char} {d : Char} (h1 : '=' ∉ k) (h2 : ':' ∉ k) (hd : d = ':' ∨ d = '=') :
    (k ++ d :: r).span (fun c => c ≠ '=' && c ≠ ':') = (k, d :: r) := by
  rw [List.span_eq_takeWhile_dropWhile]
  have hk : ∀ c ∈ k, (c ≠ '=' && c ≠ ':') = true := by
    intro c hc
    have a : c ≠ '=' := fun e => h1 (e ▸ hc)
    have b : c ≠ ':' := fun e => h2 (e ▸ hc)
    simp [a, b]
  have hdd : ¬ (d ≠ '=' && d ≠ ':') = true := by rcases hd with rfl | rfl <;> decide
  rw [List.takeWhile_append_of_pos hk, List.dropWhile_append_of_pos hk,
    List.takeWhile_cons_of_neg (p := fun c => c ≠ '=' && c ≠ ':') hdd,
    List.dropWhile_cons_of_neg (p := fun c => c ≠ '=' && c ≠ ':') hdd, List.append_nil]

theorem white_delim {s : List Char} (h : White s) : '=' ∉ s ∧ ':' ∉ s :=
  ⟨fun e => by rcases h _ e with h | h <;> exact absurd h (by decide), fun e => by rcases h _ e with h | h <;> exact absurd h (by decide)⟩

theorem option_line (st : ReadState) {key value : String} {l : List Char} (h : OptionLine key value l) (sec : String)
    (hc : st.cur = some sec) : st.line l = if ((st.content sec).get? key).isSome then .error .configError
      else .ok { st with indent := 0, sections := st.sections.set sec ((st.content sec).set key [value.toList]), opt := some key } := by
  obtain ⟨k, s1, d, s2, s3, rfl, hk, rfl, h1, h2, h3, hd, hv⟩ := h
  obtain ⟨c, k', rfl⟩ : ∃ c k', k = c :: k' := by
    cases k with
    | nil => exact absurd rfl hk.nonempty
    | cons c k' => exact ⟨c, k', rfl⟩
  have hcv : pySpace c = false := visible_space (hk.trimmed.1 c rfl)
  obtain ⟨hs1, hs2, hs3⟩ := hk.start c rfl
  -- the stripped line
  obtain ⟨r, hr, hrv⟩ : ∃ r, strip ((c :: k') ++ s1 ++ d :: (s2 ++ value.toList ++ s3)) = (c :: k') ++ s1 ++ d :: r ∧ strip r = value.toList := by
    have hdv : pySpace d = false := by rcases hd with rfl | rfl <;> decide
    have e0 : lstrip ((c :: k') ++ s1 ++ d :: (s2 ++ value.toList ++ s3)) = (c :: k') ++ s1 ++ d :: (s2 ++ value.toList ++ s3) := by
      rw [List.cons_append, List.cons_append, lstrip_cons hcv]
    rw [strip, e0]
    by_cases hne : value.toList = []
    · refine ⟨[], ?_, by rw [hne]; rfl⟩
      have : (c :: k') ++ s1 ++ d :: (s2 ++ value.toList ++ s3) = ((c :: k') ++ s1 ++ [d]) ++ (s2 ++ s3) := by simp [hne]
      rw [this, rstrip_white (by
        intro x hx
        rcases List.mem_append.1 hx with hx | hx
        · exact h2 x hx
        · exact h3 x hx), rstrip_concat hdv]
    · refine ⟨s2 ++ value.toList, ?_, ?_⟩
      · have : (c :: k') ++ s1 ++ d :: (s2 ++ value.toList ++ s3) = ((c :: k') ++ s1 ++ d :: (s2 ++ value.toList)) ++ s3 := by simp
        rw [this, rstrip_white h3]
        refine rstrip_trimmed ⟨fun x hx => ?_, fun x hx => hv.2 x ?_⟩
        · cases hx
          exact hk.trimmed.1 _ rfl
        · rw [List.getLast?_append, List.getLast?_cons, List.getLast?_append, Option.or_of_isSome (by simp)] at hx
          obtain ⟨v', y, hy⟩ := (List.eq_nil_or_concat value.toList).resolve_left hne
          rw [hy] at hx ⊢
          simpa using hx
      · have := strip_trimmed h2 (s' := []) (by simp [White]) hv
        simpa using this
  have ht : ((c :: k') ++ s1 ++ d :: (s2 ++ value.toList ++ s3)).takeWhile pySpace = [] := by
    rw [List.append_assoc, takeWhile_trimmed hk.trimmed (by simp)]
  have hsec : sectionName ((c :: k') ++ s1 ++ d :: r) = none := by
    rw [List.cons_append, List.cons_append, sectionName]
    intro rest e
    exact hs3 (List.cons.inj e).1
  have hsplit : splitOption ((c :: k') ++ s1 ++ d :: r) = some (c :: k', r) := by
    have := span_delim (k := (c :: k') ++ s1) (r := r) (d := d) (by
      simp only [List.mem_append, not_or]
      exact ⟨hk.delim.1, (white_delim h1).1⟩) (by
      simp only [List.mem_append, not_or]
      exact ⟨hk.delim.2, (white_delim h1).2⟩) hd
    rw [splitOption, this]
    simp only
    rw [rstrip_white h1, rstrip_trimmed hk.trimmed]
  rw [flush_line st (hr.trans (by rw [List.cons_append, List.cons_append])) ⟨hs1, hs2⟩ ht, ReadState.newLine, ← List.cons_append, ← List.cons_append, hsec]
  simp only [hc, hsplit, hrv, lower]
  simp only [ReadState.content, reduceCtorEq, decide_false, Bool.or_false]
  rfl

/-! ### Options of a section -/

theorem readLines_append (st : ReadState) (ls rest : List (List Char)) :
    readLines st (ls ++ rest) = (readLines st ls) >>= fun st' => readLines st' rest := by
  induction ls generalizing st with
  | nil => rfl
  | cons l ls ih =>
    rw [List.cons_append, readLines, readLines]
    cases st.line l with
    | error e => rfl
    | ok st' => exact ih st'

theorem view_content {st : ReadState} {sec : String} {o : Dict String} (h : st.view.get? sec = some o) :
    st.sections.get? sec = some (st.content sec) ∧ cleaned (st.content sec) = o := by
  rw [view_get] at h
  unfold ReadState.content
  cases hs : st.sections.get? sec with
  | none => rw [hs] at h; cases h
  | some d =>
    rw [hs] at h
    exact ⟨rfl, Option.some.inj h⟩

theorem options_read {os : List (String × String)} {ls : List (List Char)} (h : OptionLines os ls) :
    ∀ (st : ReadState) (sec : String) (A B : Dict (Dict String)) (o0 : Dict String), st.Fine → st.cur = some sec →
      st.view = A ++ (sec, o0) :: B → (∀ p ∈ A, p.1 ≠ sec) → (o0.map (·.1)).Nodup →
      (((o0 ++ os).map (·.1)).Nodup → ∃ st', readLines st ls = .ok st' ∧ st'.Fine ∧ st'.cur = some sec ∧
        st'.view = A ++ (sec, o0 ++ os) :: B ∧ st'.failed = st.failed) ∧
      (¬ ((o0 ++ os).map (·.1)).Nodup → readLines st ls = .error .configError) := by
  induction h with
  | nil =>
    intro st sec A B o0 hf hc hv _ hn
    exact ⟨fun _ => ⟨st, rfl, hf, hc, by rw [hv, List.append_nil], rfl⟩, fun h => absurd (by rwa [List.append_nil]) h⟩
  | blank hl _ ih =>
    intro st sec A B o0 hf hc hv hA hn
    obtain ⟨st1, h1, h2, h3, h4, h5⟩ := blank_line st hf hl
    obtain ⟨i1, i2⟩ := ih st1 sec A B o0 h2 (h4.trans hc) (h3.trans hv) hA hn
    rw [readLines, h1]
    exact ⟨fun hr => by obtain ⟨st', h6, h7, h8, h9, h10⟩ := i1 hr; exact ⟨st', h6, h7, h8, h9, h10.trans h5⟩, i2⟩
  | comment hl _ ih =>
    intro st sec A B o0 hf hc hv hA hn
    rw [readLines, comment_line st hl]
    exact ih st sec A B o0 hf hc hv hA hn
  | @option k v l os ls hl _ ih =>
    intro st sec A B o0 hf hc hv hA hn
    obtain ⟨e1, e2⟩ := view_content (st := st) (sec := sec) (o := o0) (by rw [hv]; exact Dict.get?_mid A B sec o0 hA)
    have hline := option_line st hl sec hc
    by_cases hfresh : ∀ p ∈ o0, p.1 ≠ k
    · have hnone : (st.content sec).get? k = none := by
        have := cleaned_get (st.content sec) k
        rw [e2, Dict.get?_fresh o0 k hfresh] at this
        simpa using this.symm
      rw [hnone] at hline
      simp only [Option.isSome_none, Bool.false_eq_true, if_false] at hline
      have htrim : Trimmed v.toList := by
        obtain ⟨_, _, _, _, _, _, _, _, _, _, _, _, h⟩ := hl
        exact h
      have hview : ReadState.view { st with indent := 0, sections := st.sections.set sec ((st.content sec).set k [v.toList]), opt := some k }
          = A ++ (sec, o0 ++ [(k, v)]) :: B := by
        have : ∀ d : Dict (List (List Char)), cleaned (d.set k [v.toList]) = (cleaned d).set k v := by
          intro d
          unfold cleaned
          rw [Dict.set_map, joinLines_one htrim, String.ofList_toList]
        unfold ReadState.view at hv ⊢
        dsimp only
        rw [Dict.set_map, hv, this, e2, Dict.set_fresh o0 k v hfresh, Dict.set_mid A B sec _ _ hA]
      have hn' : ((o0 ++ [(k, v)]).map (·.1)).Nodup := by
        rw [List.map_append, List.nodup_append]
        refine ⟨hn, by simp, fun a ha c hc => ?_⟩
        obtain ⟨p, hp, rfl⟩ := List.mem_map.1 ha
        simp only [List.map_cons, List.map_nil, List.mem_singleton] at hc
        subst hc
        exact hfresh p hp
      obtain ⟨i1, i2⟩ := ih
        { st with indent := 0, sections := st.sections.set sec ((st.content sec).set k [v.toList]), opt := some k } sec A B
        (o0 ++ [(k, v)]) ⟨fun sec' hs => by
          obtain rfl : sec = sec' := Option.some.inj (hc.symm.trans hs)
          refine ⟨_, by rw [Dict.get?_set, if_pos rfl], fun key hk => ?_⟩
          cases hk
          exact ⟨_, by rw [Dict.get?_set, if_pos rfl]⟩⟩ hc hview hA hn'
      have happ : o0 ++ (k, v) :: os = (o0 ++ [(k, v)]) ++ os := by simp
      rw [readLines, hline, happ]
      exact ⟨i1, i2⟩
    · push Not at hfresh
      obtain ⟨p, hp, e⟩ := hfresh
      have hsome : ((st.content sec).get? k).isSome := by
        by_contra hcn
        rw [Option.not_isSome_iff_eq_none] at hcn
        have := cleaned_get (st.content sec) k
        rw [e2, hcn, Option.map_none, Dict.get?_none] at this
        exact this ⟨p.2, e ▸ hp⟩
      rw [readLines, hline, if_pos hsome]
      refine ⟨fun h => ?_, fun _ => rfl⟩
      rw [List.map_append, List.nodup_append] at h
      exact absurd e (h.2.2 p.1 (List.mem_map_of_mem hp) k (by simp))

/-! ### Sections -/

/-- Options of the section `DEFAULT`. -/
def defaultsOf (bs : List Block) : List (String × String) := (bs.filter (fun b => b.name = "DEFAULT")).flatMap (·.options)

/-- The other sections. -/
def othersOf (bs : List Block) : Dict (Dict String) := (bs.filter (fun b => b.name ≠ "DEFAULT")).map fun b => (b.name, b.options)

/-- What is required of the remaining sections. -/
structure Rest (d0 : Dict String) (secs : Dict (Dict String)) (bs : List Block) : Prop where
  names : ((secs.map (·.1)) ++ (othersOf bs).map (·.1)).Nodup
  options : ∀ p ∈ othersOf bs, (p.2.map (·.1)).Nodup
  defaults : ((d0 ++ defaultsOf bs).map (·.1)).Nodup

theorem rest_start (bs : List Block) : Rest [] [] bs ↔ Distinct bs := by
  constructor
  · rintro ⟨h1, h2, h3⟩
    refine ⟨by simpa [othersOf, List.map_map, Function.comp_def] using h1, fun b hb hn => h2 (b.name, b.options) ?_, h3⟩
    exact List.mem_map.2 ⟨b, List.mem_filter.2 ⟨hb, by simpa using hn⟩, rfl⟩
  · rintro ⟨h1, h2, h3⟩
    refine ⟨by simpa [othersOf, List.map_map, Function.comp_def] using h1, fun p hp => ?_, h3⟩
    obtain ⟨b, hb, rfl⟩ := List.mem_map.1 hp
    obtain ⟨hb, hn⟩ := List.mem_filter.1 hb
    exact h2 b hb (by simpa using hn)

theorem layout_read {bs : List Block} {ls : List (List Char)} (h : Layout bs ls) :
    ∀ (st : ReadState) (d0 : Dict String) (secs : Dict (Dict String)), st.Fine → st.view = ("DEFAULT", d0) :: secs →
      (∀ p ∈ secs, p.1 ≠ "DEFAULT") → (secs.map (·.1)).Nodup → (d0.map (·.1)).Nodup →
      (Rest d0 secs bs → ∃ st', readLines st ls = .ok st' ∧ st'.view = ("DEFAULT", d0 ++ defaultsOf bs) :: (secs ++ othersOf bs) ∧
        st'.failed = st.failed) ∧ (¬ Rest d0 secs bs → readLines st ls = .error .configError) := by
  induction h with
  | nil =>
    intro st d0 secs hf hv _ hs hd
    refine ⟨fun _ => ⟨st, rfl, by simpa [defaultsOf, othersOf] using hv, rfl⟩, fun h => absurd ?_ h⟩
    exact ⟨by simpa [othersOf] using hs, by simp [othersOf], by simpa [defaultsOf] using hd⟩
  | blank hl _ ih =>
    intro st d0 secs hf hv hs hn hd
    obtain ⟨st1, h1, h2, h3, h4, h5⟩ := blank_line st hf hl
    obtain ⟨i1, i2⟩ := ih st1 d0 secs h2 (h3.trans hv) hs hn hd
    rw [readLines, h1]
    exact ⟨fun hr => by obtain ⟨st', h6, h7, h8⟩ := i1 hr; exact ⟨st', h6, h7, h8.trans h5⟩, i2⟩
  | comment hl _ ih =>
    intro st d0 secs hf hv hs hn hd
    rw [readLines, comment_line st hl]
    exact ih st d0 secs hf hv hs hn hd
  | @block b hd ls bs rest hh ho _ ih =>
    intro st d0 secs hf hv hs hn hd0
    have hline := header_line st hh
    by_cases hb : b.name = "DEFAULT"
    · rw [if_pos hb] at hline
      have hoth : othersOf (b :: bs) = othersOf bs := by simp [othersOf, hb]
      have hdef : defaultsOf (b :: bs) = b.options ++ defaultsOf bs := by simp [defaultsOf, hb]
      have hfine : ReadState.Fine { st with indent := 0, cur := some b.name, opt := none } := ⟨fun sec hsec => by
        cases hsec
        have := view_content (st := st) (sec := "DEFAULT") (o := d0) (by rw [hv]; simp [Dict.get?])
        exact ⟨_, by rw [hb]; exact this.1, by simp⟩⟩
      have hview : ReadState.view { st with indent := 0, cur := some b.name, opt := none } = [] ++ (b.name, d0) :: secs := by
        rw [hb]; exact hv
      have hrest : Rest d0 secs (b :: bs) ↔ ((d0 ++ b.options).map (·.1)).Nodup ∧ Rest (d0 ++ b.options) secs bs := by
        constructor
        · rintro ⟨r1, r2, r3⟩
          rw [hoth] at r1 r2
          rw [hdef, ← List.append_assoc] at r3
          exact ⟨(List.nodup_append.1 (by rw [← List.map_append]; exact r3)).1, r1, r2, r3⟩
        · rintro ⟨_, r1, r2, r3⟩
          exact ⟨by rw [hoth]; exact r1, by rw [hoth]; exact r2, by rw [hdef, ← List.append_assoc]; exact r3⟩
      rw [List.cons_append, readLines, hline]
      dsimp only
      rw [readLines_append, hrest]
      obtain ⟨o1, o2⟩ := options_read ho _ b.name [] secs d0 hfine rfl hview (by simp) hd0
      constructor
      · rintro ⟨r1, r2⟩
        obtain ⟨st1, a1, a2, a3, a4, a5⟩ := o1 r1
        rw [List.nil_append, hb] at a4
        obtain ⟨st', c1, c2, c3⟩ := (ih st1 (d0 ++ b.options) secs a2 a4 hs hn r1).1 r2
        refine ⟨st', by rw [a1]; exact c1, ?_, c3.trans a5⟩
        rw [c2, hoth, hdef, List.append_assoc]
      · intro hr
        by_cases r1 : ((d0 ++ b.options).map (·.1)).Nodup
        · obtain ⟨st1, a1, a2, a3, a4, a5⟩ := o1 r1
          rw [List.nil_append, hb] at a4
          rw [a1]
          exact (ih st1 (d0 ++ b.options) secs a2 a4 hs hn r1).2 fun r2 => hr ⟨r1, r2⟩
        · rw [o2 r1]
          rfl
    · rw [if_neg hb] at hline
      have hoth : othersOf (b :: bs) = (b.name, b.options) :: othersOf bs := by simp [othersOf, hb]
      have hdef : defaultsOf (b :: bs) = defaultsOf bs := by simp [defaultsOf, hb]
      have hrest : Rest d0 secs (b :: bs) ↔ (∀ p ∈ secs, p.1 ≠ b.name) ∧ (b.options.map (·.1)).Nodup ∧
          Rest d0 (secs ++ [(b.name, b.options)]) bs := by
        constructor
        · rintro ⟨r1, r2, r3⟩
          rw [hoth] at r1 r2
          rw [hdef] at r3
          refine ⟨fun p hp e => ?_, r2 _ List.mem_cons_self, by simpa using r1, fun p hp => r2 p (List.mem_cons_of_mem _ hp), r3⟩
          rw [List.nodup_append] at r1
          exact r1.2.2 p.1 (List.mem_map_of_mem hp) b.name (by simp) e
        · rintro ⟨_, r0, r1, r2, r3⟩
          refine ⟨by rw [hoth]; simpa using r1, fun p hp => ?_, by rw [hdef]; exact r3⟩
          rw [hoth] at hp
          rcases List.mem_cons.1 hp with rfl | hp
          · exact r0
          · exact r2 p hp
      rw [List.cons_append, readLines, hline, hrest]
      by_cases hfresh : ∀ p ∈ secs, p.1 ≠ b.name
      · have hkeys : ∀ p ∈ ("DEFAULT", d0) :: secs, p.1 ≠ b.name := by
          intro p hp
          rcases List.mem_cons.1 hp with rfl | hp
          · exact Ne.symm hb
          · exact hfresh p hp
        have hnone : st.sections.get? b.name = none := by
          have := view_get st b.name
          rw [hv, Dict.get?_fresh _ _ hkeys] at this
          simpa using this.symm
        rw [hnone]
        simp only [Option.isSome_none, Bool.false_eq_true, if_false]
        have hget : Dict.get? (st.sections ++ [(b.name, ([] : Dict (List (List Char))))]) b.name = some [] :=
          Dict.get?_mid _ _ _ _ fun p hp e => by
            have := (Dict.get?_none st.sections b.name).1 hnone
            exact this ⟨p.2, e ▸ hp⟩
        have hfine : ReadState.Fine { st with indent := 0, sections := st.sections ++ [(b.name, [])], cur := some b.name, opt := none } :=
          ⟨fun sec hsec => by
            cases hsec
            exact ⟨_, hget, by simp⟩⟩
        have hview : ReadState.view { st with indent := 0, sections := st.sections ++ [(b.name, [])], cur := some b.name, opt := none } =
            (("DEFAULT", d0) :: secs) ++ (b.name, []) :: [] := by
          rw [ReadState.view] at hv ⊢
          rw [List.map_append, hv]
          rfl
        obtain ⟨o1, o2⟩ := options_read ho _ b.name (("DEFAULT", d0) :: secs) [] [] hfine rfl hview hkeys (by simp)
        rw [List.nil_append] at o1 o2
        rw [readLines_append]
        have hs' : ∀ p ∈ secs ++ [(b.name, b.options)], p.1 ≠ "DEFAULT" := by
          intro p hp
          rcases List.mem_append.1 hp with hp | hp
          · exact hs p hp
          · obtain rfl := List.mem_singleton.1 hp
            exact hb
        have hn' : ((secs ++ [(b.name, b.options)]).map (·.1)).Nodup := by
          rw [List.map_append, List.nodup_append]
          refine ⟨hn, by simp, fun a ha c hc => ?_⟩
          obtain ⟨p, hp, rfl⟩ := List.mem_map.1 ha
          simp only [List.map_cons, List.map_nil, List.mem_singleton] at hc
          subst hc
          exact hfresh p hp
        constructor
        · rintro ⟨_, r1, r2⟩
          obtain ⟨st1, a1, a2, a3, a4, a5⟩ := o1 r1
          rw [List.cons_append] at a4
          obtain ⟨st', c1, c2, c3⟩ := (ih st1 d0 _ a2 a4 hs' hn' hd0).1 r2
          refine ⟨st', by rw [a1]; exact c1, ?_, c3.trans a5⟩
          rw [c2, hoth, hdef, List.append_assoc]
          rfl
        · intro hr
          by_cases r1 : (b.options.map (·.1)).Nodup
          · obtain ⟨st1, a1, a2, a3, a4, a5⟩ := o1 r1
            rw [List.cons_append] at a4
            rw [a1]
            exact (ih st1 d0 _ a2 a4 hs' hn' hd0).2 fun r2 => hr ⟨hfresh, r1, r2⟩
          · rw [o2 r1]
            rfl
      · refine ⟨fun h => absurd h.1 hfresh, fun _ => ?_⟩
        have hsome : (st.sections.get? b.name).isSome := by
          by_contra hc
          rw [Option.not_isSome_iff_eq_none] at hc
          have := view_get st b.name
          rw [hv, hc, Option.map_none, Dict.get?_none] at this
          push Not at hfresh
          obtain ⟨p, hp, e⟩ := hfresh
          exact this ⟨p.2, List.mem_cons_of_mem _ (e ▸ hp)⟩
        rw [if_pos hsome]

/-- **C118.** A file of the documented syntax is read as the sections and options written in it. -/
theorem layout_config {bs : List Block} {ls : List (List Char)} (h : Layout bs ls) (hd : Distinct bs) :
    readConfig ls = .ok ((othersOf bs).map fun p => Section.ofRaw p.1 (withDefaults p.2 (defaultsOf bs))) := by
  obtain ⟨st', h1, h2, h3⟩ := (layout_read h .init [] [] ⟨fun sec hs => by cases hs⟩ rfl (by simp) (by simp) (by simp)).1
    ((rest_start bs).2 hd)
  have hD := view_content (st := st') (sec := "DEFAULT") (o := [] ++ defaultsOf bs) (by rw [h2]; simp [Dict.get?])
  rw [readConfig, h1]
  simp only [h3, ReadState.init, Bool.false_eq_true, if_false]
  have hc : List.map (fun p : String × List (List Char) => (p.1, joinLines p.2)) (st'.content "DEFAULT") = defaultsOf bs := hD.2
  rw [hc]
  congr 1
  have : (List.filter (fun p => decide (p.1 ≠ "DEFAULT")) st'.view) = othersOf bs := by
    rw [h2, List.filter_cons]
    simp only [ne_eq, not_true_eq_false, decide_false, Bool.false_eq_true, if_false, List.nil_append]
    rw [List.filter_eq_self]
    intro p hp
    simp only [othersOf, List.mem_map, List.mem_filter] at hp
    obtain ⟨b, ⟨_, hb⟩, rfl⟩ := hp
    exact hb
  rw [← this, ReadState.view, List.filter_map, List.map_map]
  rfl

/-- **C118.** Otherwise it is not read at all. -/
theorem layout_twice {bs : List Block} {ls : List (List Char)} (h : Layout bs ls) (hd : ¬ Distinct bs) :
    readConfig ls = .error .configError := by
  have := (layout_read h .init [] [] ⟨fun sec hs => by cases hs⟩ rfl (by simp) (by simp) (by simp)).2
    fun hr => hd ((rest_start bs).1 hr)
  rw [readConfig, this]

/-- **C118.** In any file, comments can be added and removed. -/
theorem comment_ignored (a b : List (List Char)) {l : List Char} (h : CfgComment l) : readConfig (a ++ l :: b) = readConfig (a ++ b) := by
  have : readLines .init (a ++ l :: b) = readLines .init (a ++ b) := by
    rw [readLines_append, readLines_append]
    congr 1
    funext st
    rw [readLines, comment_line st h]
  rw [readConfig, readConfig, this]

/-! ### Texts that are not read -/

theorem newLine_failed {st st' : ReadState} {v : List Char} (h : st.newLine v = .ok st') (hf : st.failed = true) : st'.failed = true := by
  unfold ReadState.newLine at h
  split at h
  · dsimp only at h
    split at h
    · cases h; exact hf
    · split at h
      · cases h
      · cases h; exact hf
  · split at h
    · cases h
    · split at h
      · cases h; rfl
      · dsimp only at h
        split at h
        · cases h
        · cases h
          simp [hf]

theorem line_failed {st st' : ReadState} {l : List Char} (h : st.line l = .ok st') (hf : st.failed = true) : st'.failed = true := by
  unfold ReadState.line at h
  split at h
  · split at h
    · cases h; exact hf
    · cases h; exact hf
  · split at h
    · cases h; exact hf
    · dsimp only at h
      split at h
      · split at h
        · cases h; exact hf
        · exact newLine_failed h hf
      · exact newLine_failed h hf

theorem readLines_failed {ls : List (List Char)} : ∀ {st st' : ReadState}, readLines st ls = .ok st' → st.failed = true → st'.failed = true := by
  induction ls with
  | nil => intro st st' h hf; cases h; exact hf
  | cons l ls ih =>
    intro st st' h hf
    rw [readLines] at h
    split at h
    · cases h
    · rename_i st1 h1
      exact ih h (line_failed h1 hf)

theorem newLine_error {st : ReadState} {v : List Char} {e : PyErr} (h : st.newLine v = .error e) : e = .configError := by
  unfold ReadState.newLine at h
  split at h
  · dsimp only at h
    split at h
    · cases h
    · split at h
      · cases h; rfl
      · cases h
  · split at h
    · cases h; rfl
    · split at h
      · cases h
      · dsimp only at h
        split at h
        · cases h; rfl
        · cases h

theorem line_error {st : ReadState} {l : List Char} {e : PyErr} (h : st.line l = .error e) : e = .configError := by
  unfold ReadState.line at h
  split at h
  · split at h <;> cases h
  · split at h
    · cases h
    · dsimp only at h
      split at h
      · split at h
        · cases h
        · exact newLine_error h
      · exact newLine_error h

theorem readLines_error {ls : List (List Char)} {e : PyErr} : ∀ {st : ReadState}, readLines st ls = .error e → e = .configError := by
  induction ls with
  | nil => intro st h; cases h
  | cons l ls ih =>
    intro st h
    rw [readLines] at h
    split at h
    · rename_i h1
      cases h
      exact line_error h1
    · exact ih h

/-- **C118.** Texts that are not read raise one of the exceptions of the library. -/
theorem readConfig_error {ls : List (List Char)} {e : PyErr} (h : readConfig ls = .error e) : e = .configError := by
  unfold readConfig at h
  split at h
  · rename_i h1
    cases h
    exact readLines_error h1
  · split at h
    · cases h; rfl
    · cases h

theorem splitOption_none {v : List Char} (h : '=' ∉ v ∧ ':' ∉ v) : splitOption v = none := by
  have hk : ∀ c ∈ v, (c ≠ '=' && c ≠ ':') = true := by
    intro c hc
    have a : c ≠ '=' := fun e => h.1 (e ▸ hc)
    have b : c ≠ ':' := fun e => h.2 (e ▸ hc)
    simp [a, b]
  have h1 : v.span (fun c => c ≠ '=' && c ≠ ':') = (v, []) := by
    rw [List.span_eq_takeWhile_dropWhile]
    have := List.takeWhile_append_of_pos (l₂ := []) hk
    have h2 := List.dropWhile_append_of_pos (l₂ := []) hk
    simp only [List.append_nil, List.takeWhile_nil, List.dropWhile_nil] at this h2
    rw [this, h2]
  rw [splitOption, h1]

/-- **C118.** No text is read in which a line that is not indented, is no comment and starts no section, has no delimiter. -/
theorem undelimited_rejected (a b : List (List Char)) {c : Char} {rest : List Char} (hc : Visible c)
    (hn : c ≠ '#' ∧ c ≠ ';' ∧ c ≠ '[') (hd : '=' ∉ c :: rest ∧ ':' ∉ c :: rest) :
    readConfig (a ++ (c :: rest) :: b) = .error .configError := by
  cases ha : readLines .init a with
  | error e =>
    rw [readConfig, readLines_append, ha, readLines_error ha]
    rfl
  | ok st =>
    have hsp := visible_space hc
    obtain ⟨t, ht⟩ := rstrip_cons rest hsp
    have h1 : strip (c :: rest) = c :: t := by rw [strip, lstrip_cons hsp, ht]
    have hmem : ∀ x ∈ c :: t, x ∈ c :: rest := by
      intro x hx
      rw [← ht, rstrip, List.mem_reverse] at hx
      exact List.mem_reverse.1 ((List.dropWhile_sublist (p := pySpace) (l := (c :: rest).reverse)).subset hx)
    have h2 : (c :: rest).takeWhile pySpace = [] := List.takeWhile_cons_of_neg (by simp [hsp])
    have h3 : sectionName (c :: t) = none := by
      unfold sectionName
      split
      · rename_i heq
        exact absurd (List.cons.inj heq).1 hn.2.2
      · rfl
    have h4 : splitOption (c :: t) = none := splitOption_none ⟨fun h => hd.1 (hmem _ h), fun h => hd.2 (hmem _ h)⟩
    have hline := flush_line st h1 ⟨hn.1, hn.2.1⟩ h2
    rw [ReadState.newLine, h3] at hline
    dsimp only at hline
    rw [readConfig, readLines_append, ha]
    change (match readLines st ((c :: rest) :: b) with | .error e => _ | .ok st => _) = _
    rw [readLines, hline]
    cases hcur : st.cur with
    | none => rfl
    | some sec =>
      dsimp only
      rw [h4]
      dsimp only
      split
      · rename_i e he
        rw [readLines_error he]
      · rename_i st' he
        rw [if_pos (readLines_failed he rfl)]

/-- **C118.** No text is read in which anything but comments and empty lines is before the first section. -/
theorem headerless_rejected (a b : List (List Char)) {c : Char} {rest : List Char} (ha : ∀ l ∈ a, CfgBlank l ∨ CfgComment l) (hc : Visible c)
    (hn : c ≠ '#' ∧ c ≠ ';' ∧ c ≠ '[') {s : List Char} (hs : White s) : readConfig (a ++ (s ++ c :: rest) :: b) = .error .configError := by
  have h0 : readLines .init a = .ok .init := by
    induction a with
    | nil => rfl
    | cons l a ih =>
      have : ReadState.init.line l = .ok .init := by
        rcases ha l List.mem_cons_self with h | h
        · rw [ReadState.line, strip_white h]
          rfl
        · exact comment_line _ h
      rw [readLines, this]
      exact ih fun l hl => ha l (List.mem_cons_of_mem _ hl)
  have hsp := visible_space hc
  obtain ⟨t, ht⟩ := rstrip_cons rest hsp
  have h1 : strip (s ++ c :: rest) = c :: t := by rw [strip, lstrip_white hs, lstrip_cons hsp, ht]
  have h3 : sectionName (c :: t) = none := by
    unfold sectionName
    split
    · rename_i heq
      exact absurd (List.cons.inj heq).1 hn.2.2
    · rfl
  have hline : ReadState.init.line (s ++ c :: rest) = .error .configError := by
    rw [ReadState.line, h1]
    dsimp only
    rw [if_neg (by simp [hn.1, hn.2.1])]
    change ReadState.newLine _ (c :: t) = _
    rw [ReadState.newLine, h3]
    rfl
  rw [readConfig, readLines_append, h0]
  change (match readLines .init ((s ++ c :: rest) :: b) with | .error e => _ | .ok st => _) = _
  rw [readLines, hline]

/-! ### Meaning of the sections -/

theorem withDefaults_get (own defaults : Dict String) (key : String) :
    (withDefaults own defaults).get? key = (own.get? key).or (defaults.get? key) := by
  unfold withDefaults Dict.get?
  rw [List.lookup_append]
  cases ho : List.lookup key own with
  | some v => rfl
  | none =>
    rw [Option.none_or, Option.none_or]
    induction defaults with
    | nil => rfl
    | cons p d ih =>
      obtain ⟨k, v⟩ := p
      by_cases hk : key = k
      · subst hk
        rw [List.filter_cons_of_pos (by simp [ho])]
        simp
      · have hb : (key == k) = false := by simpa using hk
        rw [List.filter_cons]
        split
        · rw [List.lookup_cons, List.lookup_cons, hb]
          exact ih
        · rw [List.lookup_cons, hb]
          exact ih

theorem own_default {bs : List Block} (key value : String) : Own bs "DEFAULT" key value ↔ (key, value) ∈ defaultsOf bs := by
  simp only [Own, defaultsOf, List.mem_flatMap, List.mem_filter, decide_eq_true_eq]
  constructor
  · rintro ⟨b, h1, h2, h3⟩
    exact ⟨b, ⟨h1, h2⟩, h3⟩
  · rintro ⟨b, ⟨h1, h2⟩, h3⟩
    exact ⟨b, h1, h2, h3⟩

/-- **C118.** The sections of the file, and the values of their options. -/
theorem layout_section {bs : List Block} {ls : List (List Char)} (h : Layout bs ls) (hd : Distinct bs) :
    ∃ cfg, readConfig ls = .ok cfg ∧ ∀ name, (¬ HasSection bs name → findSection cfg name = none) ∧
      (HasSection bs name → ∃ raw : Dict String, findSection cfg name = some (Section.ofRaw name raw) ∧
        ∀ key value, raw.get? key = some value ↔ Written bs name key value) := by
  refine ⟨_, layout_config h hd, fun name => ⟨fun hn => ?_, fun hn => ?_⟩⟩
  · unfold findSection
    rw [List.find?_eq_none]
    intro s hs
    obtain ⟨p, hp, rfl⟩ := List.mem_map.1 hs
    obtain ⟨b, hb, rfl⟩ := List.mem_map.1 hp
    obtain ⟨h1, h2⟩ := List.mem_filter.1 hb
    intro e
    replace e : b.name = name := of_decide_eq_true e
    exact hn ⟨by rw [← e]; simpa using h2, b, h1, e⟩
  · obtain ⟨hne, b, hb, rfl⟩ := hn
    have hmem : b ∈ bs.filter (fun b => decide (b.name ≠ "DEFAULT")) := List.mem_filter.2 ⟨hb, by simpa using hne⟩
    have huniq : ∀ b' ∈ bs, b'.name = b.name → b' = b := fun b' hb' e =>
      List.inj_on_of_nodup_map hd.sections (List.mem_filter.2 ⟨hb', by simpa [e] using hne⟩) hmem e
    refine ⟨withDefaults b.options (defaultsOf bs), ?_, fun key value => ?_⟩
    · unfold findSection
      cases hf : List.find? (fun s : Section => decide (s.name = b.name))
          ((othersOf bs).map fun p => Section.ofRaw p.1 (withDefaults p.2 (defaultsOf bs))) with
      | none =>
        rw [List.find?_eq_none] at hf
        exact absurd (by simp [Section.ofRaw]) (hf _ (List.mem_map_of_mem (List.mem_map_of_mem hmem)))
      | some s =>
        have h1 := List.mem_of_find?_eq_some hf
        have h2 := List.find?_some hf
        obtain ⟨p, hp, rfl⟩ := List.mem_map.1 h1
        obtain ⟨b', hb', rfl⟩ := List.mem_map.1 hp
        obtain rfl := huniq b' (List.mem_filter.1 hb').1 (of_decide_eq_true h2)
        rfl
    · have hown : ∀ v, Own bs b.name key v ↔ Dict.get? b.options key = some v := by
        intro v
        rw [Dict.get?_nodup _ (hd.options b hb hne)]
        constructor
        · rintro ⟨b', h1, h2, h3⟩
          rwa [huniq b' h1 h2] at h3
        · exact fun h => ⟨b, hb, rfl, h⟩
      rw [withDefaults_get, Written, hown, own_default, ← Dict.get?_nodup (defaultsOf bs) hd.defaults]
      simp only [hown]
      cases Dict.get? b.options key with
      | none => simp
      | some v => simp

end Bdld
