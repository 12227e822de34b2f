import Verif.Props.FaultSetup
import Verif.Props.ConfigText
import Verif.Model.Log

/-
C134: the program exits with code 1 exactly if it logs an error; the error names a fault of the input file.
-/

namespace Bdld
open Spec

/-! ### Set-up -/

section
variable {F : Type} (c : Conv F) [Zero F] [LT F] [DecidableLT F] [LE F] [DecidableLE F]

omit [Zero F] [LT F] [DecidableLT F] [LE F] [DecidableLE F] in
theorem potential_dim_text (s : Section) (d : Dict (OptVal F)) (h : parsePotential c s = .ok d) :
    (d.get? "type" = some (.base (.str "polynomial")) ∧ Given s "type" (· = "polynomial") ∧
      ∃ n, d.get? "n_dim" = some (.base (.int n)) ∧ Given s "n_dim" (intText c (· = n))) ∨
    (d.get? "type" = some (.base (.str "mueller-brown")) ∧ Given s "type" (· = "mueller-brown")) := by
  unfold parsePotential at h
  obtain ⟨options, h2, h3⟩ := bind_ok h
  unfold potentialOptions at h2
  obtain ⟨t, h1, h2⟩ := bind_ok h2
  obtain ⟨o', h4, h2⟩ := bind_ok h2
  cases h2
  have ht : ∀ raw, t = .base (.str raw) → Given s "type" (· = raw) := by
    rintro raw rfl
    rcases str_parse c s _ _ _ _ h1 with ⟨hg, e⟩ | ⟨raw', hg, e⟩
    · cases e
    · cases e; exact ⟨_, hg, rfl⟩
  split at h4
  · obtain ⟨nd, h5, h4⟩ := bind_ok h4
    cases h4
    have hn : ((polyOptions nd ++ [opt "boundary-condition" .str false] : List (InputOption F)).map (·.key)).Nodup := by
      unfold polyOptions
      split <;> simp [opt, optList]
    have hm : ∀ o : InputOption F, o = opt "type" .str true ∨ o = opt "n_dim" .int true (some atMost3dim) →
        o ∈ polyOptions nd ++ [opt "boundary-condition" .str false] := by
      rintro o (rfl | rfl) <;> unfold polyOptions <;> split <;> simp
    left
    refine ⟨parsed_get c h3 hn (opt "type" .str true) (hm _ (.inl rfl)) _ h1, ht _ rfl, ?_⟩
    rcases int_parse c s _ _ _ _ _ h5 with ⟨_, hb, _⟩ | ⟨raw, i, hg, hi, rfl⟩
    · cases hb
    · exact ⟨i, parsed_get c h3 hn (opt "n_dim" .int true (some atMost3dim)) (hm _ (.inr rfl)) _ h5, raw, hg, i, hi, rfl⟩
  · cases h4
    exact .inr ⟨parsed_get c h3 (by simp [opt]) (opt "type" .str true) (by simp) _ h1, ht _ rfl⟩
  · cases h4

omit [LE F] [DecidableLE F] in
theorem bandwidth_text (s : Section) (d : Dict (OptVal F)) (h : parseSection c s (birthDeathOptions false) = .ok d) (v : OptVal F) (l : List F)
    (h1 : d.getItem "kernel-bandwidth" = .ok v) (h2 : v.asFloats = .ok l) :
    Given s "kernel-bandwidth" fun t => ∃ parts, CommaSeparated t parts ∧ parts.length = l.length := by
  have hm : optList "kernel-bandwidth" .float true (some allPositive) ∈ (birthDeathOptions false : List (InputOption F)) := by
    simp [birthDeathOptions]
  obtain ⟨w, hw⟩ := (parseSection_iff c s _).1 ⟨d, h⟩ _ hm
  have hd := parsed_get c h (by simp [birthDeathOptions, opt, optList]) _ hm w hw
  simp only [Dict.getItem, show d.get? "kernel-bandwidth" = some w from hd] at h1
  cases h1
  unfold InputOption.parse at hw
  cases hg : s.entries.get? "kernel-bandwidth" with
  | none => simp [optList, hg] at hw
  | some r =>
    simp only [optList, hg] at hw
    split at hw
    · cases hw
    · rename_i u hu
      obtain ⟨raw, rfl, parts, l', hp, hf, rfl⟩ := convert_ok c _ s.name r u hu
      refine ⟨raw, hg, parts, hp, ?_⟩
      have : v = .list l' := by
        split at hw
        · cases hw
        · exact (Except.ok.inj hw).symm
        · cases hw
      subst this
      rw [hf.length_eq]
      have := mapM_length _ _ _ h2
      exact this.symm

end

variable {R : Type}

theorem setup_cause (w : World R) (cfg : List Section) (config : Input ℝ) (r : AnySim R) (e : PyErr)
    (hp : parseAll 1 w.conv (some cfg) = .ok config) (hr : setupRequired w config = .ok r)
    (h : setupOptional w config r.cfg r.sim = .error e) (hc : caughtSetup e = true) : Cause w.conv cfg e := by
  have hv := input_valid 1 one_pos _ _ hp
  obtain ⟨cfg', sLd, sPot, sPart, e0, f1, f2, f3, e1, e2, e3, e4, e5, e6, e7, e8, e9⟩ := parseAll_inv 1 _ _ hp
  cases e0
  have quiet : ∀ {α : Type} {x : Except PyErr α}, Quiet x → x = .error e → False := by
    intro α x hq hx
    rw [hq e hx] at hc
    cases hc
  unfold setupOptional at h
  rcases bind_error h with h | ⟨⟨c1, s1⟩, g1, h⟩
  · split at h
    · cases h
    · rename_i o ho
      rcases bind_error h with h | ⟨_, _, h⟩
      · obtain ⟨rfl, hd, v, l, a1, a2, a3⟩ := birthDeath_error w o _ (hv.birthDeath o ho) e h hc
        rcases parseOptional_ok e4 with ⟨_, b2⟩ | ⟨s, d, b1, b2, b3⟩
        · rw [ho] at b2; cases b2
        rw [ho] at b3
        cases b3
        have hone : isOneDim config.potential = false := by
          by_contra h1
          rw [Bool.not_eq_false] at h1
          have := (hv.birthDeath o ho).bandwidth
          rw [h1] at this
          obtain ⟨x, hx, _⟩ := this
          simp only [Dict.getItem, hx] at a1
          cases a1
          cases a2
        rw [hone] at b2
        have htext := bandwidth_text w.conv s o b2 v l a1 a2
        obtain ⟨p, pf, pd⟩ := required_dim w config r hv.potential hr
        refine .bandwidth (d := r.d) ⟨sPot, f2, ?_⟩ b1 (given_mono (fun t ⟨parts, hp, hl⟩ => ⟨parts, hp, hl ▸ a3⟩) htext)
        rcases potential_dim_text w.conv sPot _ e2 with ⟨t1, t2, n, t3, t4⟩ | ⟨t1, t2⟩
        · left
          refine ⟨t2, given_mono (fun raw ⟨i, hi, hn⟩ => ⟨i, hi, ?_⟩) t4⟩
          have hn1 : n ≠ 1 := by
            rintro rfl
            rw [isOneDim, t3] at hone
            cases hone
          have hnd := (pf.moreDim n t1 t3 hn1).1
          obtain ⟨m, hm, hm'⟩ := hv.potential.dimPos t1
          rw [t3] at hm
          cases hm
          rw [hn, ← pd, hnd]
          omega
        · exact .inr ⟨t2, by rw [← pd]; exact (pf.mueller t1).1⟩
      · cases h
  dsimp only at h
  rcases bind_error h with h | ⟨⟨c2, s2⟩, g2, h⟩
  · split at h
    · cases h
    · rename_i o ho
      rcases bind_error h with h | ⟨_, _, h⟩
      · obtain ⟨k1, k2⟩ := hv.trajectories o ho
        exact (quiet (quiet_trajectories w o _ _ k1 k2) h).elim
      · cases h
  dsimp only at h
  rcases bind_error h with h | ⟨⟨c3, s3⟩, g3, h⟩
  · split at h
    · cases h
    · rename_i o ho
      rcases bind_error h with h' | ⟨t, _, h'⟩
      · have htraj : config.trajectories = none := by
          cases ht : config.trajectories with
          | none => rfl
          | some o' =>
            rw [ht] at g2
            obtain ⟨b, _, g2⟩ := bind_ok g2
            cases g2
            cases h'
        unfold requireAction at h'
        split at h'
        · cases h'
        · cases h'
          refine .trajectories ?_ ?_
          · rcases parseOptional_ok e6 with ⟨_, b2⟩ | ⟨s, d, b1, _, _⟩
            · rw [ho] at b2; cases b2
            · rw [b1]; exact Option.some_ne_none _
          · rcases parseOptional_ok e5 with ⟨b1, _⟩ | ⟨s, d, _, _, b3⟩
            · exact b1
            · rw [htraj] at b3; cases b3
      · rcases bind_error h' with h | ⟨_, _, h⟩
        · exact (quiet (quiet_histogram o t (hv.histogram o ho)) h).elim
        · cases h
  have hhist : config.histogram.isSome → ∃ y, s3.hist = some y := by
    intro hs
    obtain ⟨o, ho⟩ := Option.isSome_iff_exists.1 hs
    rw [ho] at g3
    obtain ⟨_, _, g3⟩ := bind_ok g3
    obtain ⟨_, _, g3⟩ := bind_ok g3
    cases g3
    exact ⟨_, rfl⟩
  dsimp only at h
  rcases bind_error h with h | ⟨⟨c4, s4⟩, g4, h⟩
  · split at h
    · cases h
    · rename_i o ho
      obtain ⟨y, hy⟩ := hhist (hv.fesNeedsHistogram (by rw [ho]; rfl))
      rw [hy] at h
      rcases bind_error h with h | ⟨t, _, h⟩
      · cases h
      · rcases bind_error h with h | ⟨_, _, h⟩
        · exact (quiet (quiet_fes w o _ _ (hv.fes o ho)) h).elim
        · cases h
  have hfes : config.fes.isSome → (∃ f, c4.fes = some f) ∧ s4.hist = s3.hist := by
    intro hs
    obtain ⟨o, ho⟩ := Option.isSome_iff_exists.1 hs
    rw [ho] at g4
    obtain ⟨_, _, g4⟩ := bind_ok g4
    obtain ⟨_, _, g4⟩ := bind_ok g4
    cases g4
    exact ⟨⟨_, rfl⟩, rfl⟩
  dsimp only at h
  rcases bind_error h with h | ⟨⟨c5, s5⟩, g5, h⟩
  · split at h
    · cases h
    · rename_i o ho
      have hs := hv.deltaFNeedsFes (by rw [ho]; rfl)
      obtain ⟨⟨f, hf⟩, hs4⟩ := hfes hs
      obtain ⟨y, hy⟩ := hhist (hv.fesNeedsHistogram hs)
      rw [hf] at h
      rcases bind_error h with h | ⟨_, _, h⟩
      · cases h
      rw [hs4, hy] at h
      rcases bind_error h with h | ⟨_, _, h⟩
      · cases h
      rcases bind_error h with h | ⟨_, _, h⟩
      · exact (quiet (quiet_deltaF w o _ _ _ (hv.deltaF o ho).toValidOutput) h).elim
      · cases h
  dsimp only at h
  split at h
  · cases h
  · rename_i o ho
    rcases bind_error h with h | ⟨_, _, h⟩
    · exact (quiet (quiet_distribution w o (hv.particleDistribution o ho).toValidOutput) h).elim
    · cases h

/-! ### Messages -/

theorem input_mentions (detail : String → String → String) (infile : String) (e : PyErr) (hc : caughtInput e = true) :
    ∀ word ∈ namesIn infile e, Mentions (inputMessage detail infile e) word := by
  cases e <;> try cases hc
  · rename_i key sec
    simp only [namesIn, List.forall_mem_cons, List.not_mem_nil, IsEmpty.forall_iff, implies_true, and_true, inputMessage, optionText]
    refine ⟨⟨"Input file '", _, by simp only [String.append_assoc]; rfl⟩,
      ⟨"Input file '" ++ infile ++ "': " ++ ("Option '" ++ key ++ "' in section ["), "]: " ++ detail key sec, ?_⟩,
      ⟨"Input file '" ++ infile ++ "': " ++ "Option '", "' in section [" ++ sec ++ "]: " ++ detail key sec, ?_⟩⟩
    · simp only [String.append_assoc]
    · simp only [String.append_assoc]
  · rename_i sec
    simp only [namesIn, List.forall_mem_cons, List.not_mem_nil, IsEmpty.forall_iff, implies_true, and_true, inputMessage]
    refine ⟨⟨"Input file '", _, by simp only [String.append_assoc]; rfl⟩,
      ⟨"Input file '" ++ infile ++ "': " ++ "No section '", "' found, but it is required", ?_⟩⟩
    simp only [String.append_assoc]
  · simp only [namesIn, List.forall_mem_cons, List.not_mem_nil, IsEmpty.forall_iff, implies_true, and_true, inputMessage]
    exact ⟨"Input file '", _, by simp only [String.append_assoc]; rfl⟩

theorem setup_mentions (detail : String → String → String) (infile : String) (e : PyErr) (hc : caughtSetup e = true) :
    ∀ word ∈ namesIn infile e, Mentions (setupMessage detail infile e) word := by
  cases e
  case keyError key =>
    intro word hw
    obtain rfl := List.mem_singleton.1 hw
    exact ⟨"Error: An action was specified that requires the '", "' section in inputbut it was not found", rfl⟩
  case optionError key sec => exact input_mentions detail infile (.optionError key sec) rfl
  all_goals cases hc

/-! ### Reports of a run -/

section
variable {R : Type} (detail : String → String → String) (infile : String) (w : World R)

/-- If the program ends with exit code 1, it has logged a single error. The input file is the cause of it, and the message
names file, section and option. -/
theorem faults_reported (cfg : List Section) (hcfg : ∀ s ∈ cfg, PlainSection s) (h : mainProgram w (some cfg) = .exit1) :
    ∃ e text, Cause w.conv cfg e ∧ mainLog detail infile w (some cfg) = some [errorRecord text] ∧
      ∀ word ∈ namesIn infile e, Mentions text word := by
  unfold mainProgram at h
  unfold mainLog
  split at h
  · rename_i e he
    simp only [raise] at h
    split at h
    · rename_i hc
      refine ⟨e, inputMessage detail infile e, parse_cause w.conv 1 cfg hcfg e he hc, ?_, input_mentions detail infile e hc⟩
      simp only [he, hc, if_true]
    · cases h
  rename_i config hp
  unfold mainFrom at h
  split at h
  · cases h
  rename_i r hr
  split at h
  · rename_i e he
    simp only [raise] at h
    split at h
    · rename_i hc
      refine ⟨e, setupMessage detail infile e, setup_cause w cfg config r e hp hr he hc, ?_, setup_mentions detail infile e hc⟩
      simp only [hp, hr, he, hc, if_true]
    · cases h
  split at h
  · cases h
  split at h <;> cases h

/-- The same for the text of a file. -/
theorem text_faults_reported (ls : List (List Char)) (h : mainText w (some ls) = .exit1) :
    ∃ cfg e text, readConfig ls = .ok cfg ∧ Cause w.conv cfg e ∧ mainLog detail infile w (some cfg) = some [errorRecord text] ∧
      ∀ word ∈ namesIn infile e, Mentions text word := by
  unfold mainText at h
  dsimp only at h
  split at h
  · rename_i e he
    rw [readConfig_error he] at h
    cases h
  rename_i cfg hls
  refine ⟨cfg, ?_⟩
  have hp : ∀ s ∈ cfg, PlainSection s := by
    have hls := hls
    unfold readConfig at hls
    split at hls
    · cases hls
    split at hls
    · cases hls
    cases hls
    intro s hs
    obtain ⟨x, _, rfl⟩ := List.mem_map.1 hs
    exact plain_ofRaw _ _
  obtain ⟨e, text, h1, h2, h3⟩ := faults_reported detail infile w cfg hp h
  exact ⟨e, text, hls, h1, h2, h3⟩

/-- A file that does not exist. -/
theorem missing_file_reported : mainProgram w none = .exit1 ∧
    ∃ text, mainLog detail infile w none = some [errorRecord text] ∧ Mentions text infile :=
  ⟨rfl, _, rfl, input_mentions detail infile .fileNotFoundError rfl infile (List.mem_singleton_self _)⟩

/-- What is logged in a run that comes to its end. -/
theorem finished_log (file : Option (List Section)) (a : AnySim R) (h : mainProgram w file = .finished a) :
    ∃ config n, parseAll 1 w.conv file = .ok config ∧ config.ld.get? "n_steps" = some (.base (.int n)) ∧
      mainLog detail infile w file = some (fesWarning a.cfg ++ resetInfo a.cfg n.toNat) := by
  obtain ⟨config, r, x, n, s, hp, hr, hx, hn, hs, rfl⟩ := main_inv w file a h
  refine ⟨config, n, hp, hn, ?_⟩
  unfold mainLog
  have e : (config.ld.getItem "n_steps").bind OptVal.asInt = .ok n := by
    simp only [Dict.getItem, hn]; rfl
  simp only [hp, hr, hx, e, hs]

end

end Bdld
