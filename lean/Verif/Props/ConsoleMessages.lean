import Std.Data.String.ToInt
import Verif.Props.ConsoleRun

/-
C136: the messages about the progress of the program tell how far it came.
-/

set_option linter.unusedSectionVars false

namespace Bdld

open Spec

/-- First characters of a text. -/
def first5 (t : String) : List Char := t.toList.take 5

theorem first5_append (a b : String) (h : 5 ≤ a.toList.length) : first5 (a ++ b) = first5 a := by
  unfold first5
  rw [String.toList_append, List.take_append_of_le_length h]

/-- The text does not begin like one of the messages about the progress. -/
def Ordinary (t : String) : Prop :=
  first5 t ≠ "Finis".toList ∧ first5 t ≠ "Setup".toList ∧ first5 t ≠ "Simul".toList

instance (t : String) : Decidable (Ordinary t) := by unfold Ordinary; infer_instance

theorem Ordinary.append {a : String} (b : String) (h : Ordinary a) (h5 : 5 ≤ a.toList.length) : Ordinary (a ++ b) := by
  unfold Ordinary
  rw [first5_append a b h5]
  exact h

/-- Everything that is printed is ordinary. -/
def Prints.Plain {α : Type} (x : Prints α) : Prop := ∀ t ∈ x.out, Ordinary t

section
variable {α β : Type}

theorem Prints.Plain.bind {x : Prints α} {f : α → Prints β} (hx : x.Plain) (hf : ∀ a, (f a).Plain) : (x >>= f).Plain := by
  rcases h : x.res with e | a
  · unfold Prints.Plain
    rw [Prints.bind_out_error x f e h]
    exact hx
  · unfold Prints.Plain
    rw [Prints.bind_out_ok x f a h]
    intro t ht
    rcases List.mem_append.1 ht with ht | ht
    · exact hx t ht
    · exact hf a t ht

theorem plain_quiet (x : Except PyErr α) : (quiet x).Plain := by
  intro t ht
  cases ht

theorem plain_pure (a : α) : (pure a : Prints α).Plain := by
  intro t ht
  cases ht

theorem plain_sayAll (l : List String) (h : ∀ t ∈ l, Ordinary t) : (sayAll l).Plain := h

theorem plain_say (t : String) (h : Ordinary t) : (say t).Plain := by
  intro u hu
  rw [say_out, List.mem_singleton] at hu
  rw [hu]
  exact h

theorem plain_sayIf (b : Bool) (t : String) (h : Ordinary t) : (sayIf b t).Plain := by
  cases b
  · intro u hu
    cases hu
  · exact plain_say t h

theorem plain_saySeed (s : Option Int) : (saySeed s).Plain := by
  cases s with
  | none => intro u hu; cases hu
  | some i => exact plain_sayIf _ _ (Ordinary.append _ (by decide) (by decide))

end

/-- The text begins with an ordinary literal. -/
macro "ordinary" : tactic =>
  `(tactic| (first | ((try simp only [String.append_assoc]); exact Ordinary.append _ (by decide) (by decide)) | decide))

variable {R : Type} {d : Nat}

theorem plain_setupLdP (sh : Shows) (w : World R) (o : Dict (OptVal ℝ)) (pot : Potential ℝ d) (text : String) :
    (setupLdP sh w o pot text).Plain := by
  refine (plain_quiet _).bind (fun v => ?_)
  split
  · refine (plain_quiet _).bind (fun _ => (plain_quiet _).bind (fun _ => (plain_quiet _).bind (fun _ =>
      (plain_quiet _).bind (fun _ => (plain_quiet _).bind (fun _ => (plain_say _ ?_).bind (fun _ =>
        (plain_saySeed _).bind (fun _ => (plain_say _ (by decide)).bind (fun _ => plain_pure _))))))))
    ordinary
  · refine (plain_quiet _).bind (fun _ => (plain_quiet _).bind (fun _ => (plain_quiet _).bind (fun _ =>
      (plain_say _ ?_).bind (fun _ => (plain_saySeed _).bind (fun _ => (plain_say _ (by decide)).bind
        (fun _ => plain_pure _))))))
    ordinary
  · exact plain_quiet _

theorem plain_initParticlesP (sh : Shows) (w : World R) (c : LdCfg ℝ d) (o : Dict (OptVal ℝ)) (s : LdState ℝ d R) :
    (initParticlesP sh w c o s).Plain := by
  refine (plain_quiet _).bind (fun _ => (plain_quiet _).bind (fun _ => (plain_say _ ?_).bind (fun _ =>
    (plain_quiet _).bind (fun _ => (plain_sayAll _ ?_).bind (fun _ => (plain_quiet _).bind (fun _ =>
      (plain_say _ (by decide)).bind (fun _ => plain_pure _)))))))
  · ordinary
  · unfold distributionText
    split <;> simp only [List.mem_singleton, forall_eq, List.not_mem_nil, false_implies, implies_true] <;> decide

theorem plain_setupRequiredP (sh : Shows) (w : World R) (config : Input ℝ) : (setupRequiredP sh w config).Plain :=
  (plain_quiet _).bind (fun _ => (plain_setupLdP _ _ _ _ _).bind (fun _ => (plain_initParticlesP _ _ _ _ _).bind
    (fun _ => plain_pure _)))

theorem plain_setupBirthDeathP (sh : Shows) (w : World R) (o : Dict (OptVal ℝ)) (c : LdCfg ℝ d) :
    (setupBirthDeathP sh w o c).Plain := by
  refine (plain_quiet _).bind (fun _ => (plain_quiet _).bind (fun v => (plain_quiet _).bind (fun _ =>
    (plain_quiet _).bind (fun _ => (plain_quiet _).bind (fun _ => (plain_quiet _).bind (fun _ =>
    (plain_quiet _).bind (fun _ => (plain_quiet _).bind (fun _ => (plain_quiet _).bind (fun _ =>
    (plain_say _ ?_).bind (fun _ => (plain_saySeed _).bind (fun _ => (plain_sayIf _ _ (by decide)).bind (fun _ =>
    (plain_say _ ?_).bind (fun _ => (plain_quiet _).bind (fun _ => (plain_say _ (by decide)).bind
    (fun _ => plain_pure _)))))))))))))))
  · ordinary
  · cases v <;> decide

theorem plain_setupTrajectoriesP (w : World R) (d : Nat) (o : Dict (OptVal ℝ)) (dt : ℝ) (m : Nat) :
    (setupTrajectoriesP w d o dt m).Plain := by
  refine (plain_quiet _).bind (fun _ => (plain_quiet _).bind (fun _ => (plain_quiet _).bind (fun _ =>
    (plain_quiet _).bind (fun _ => (plain_say _ (by decide)).bind (fun _ => (plain_quiet _).bind (fun _ =>
    (plain_sayIf _ _ ?_).bind (fun _ => (plain_say _ (by decide)).bind (fun _ => plain_pure _))))))))
  split <;> ordinary

theorem plain_setupHistogramP (sh : Shows) (d : Nat) (o : Dict (OptVal ℝ)) (t : TrajCfg ℝ) :
    (setupHistogramP sh d o t).Plain := by
  refine (plain_quiet _).bind (fun _ => (plain_quiet _).bind (fun _ => (plain_quiet _).bind (fun _ =>
    (plain_quiet _).bind (fun _ => (plain_quiet _).bind (fun _ => (plain_say _ ?_).bind (fun _ =>
    (plain_quiet _).bind (fun _ => (plain_say _ ?_).bind (fun _ => (plain_quiet _).bind (fun _ =>
    (plain_sayIf _ _ ?_).bind (fun _ => (plain_say _ (by decide)).bind (fun _ => plain_pure _)))))))))))
  · ordinary
  · ordinary
  · ordinary

theorem plain_fesStrideP (what verb : String) (hv : Ordinary verb) (h5 : 5 ≤ verb.toList.length) (stride : Option Nat)
    (other : Int) (filename : Option String) : (fesStrideP what verb stride other filename).Plain := by
  unfold fesStrideP
  split
  · split
    · exact plain_quiet _
    · refine (plain_sayIf _ _ ?_).bind (fun _ => ?_)
      · ordinary
      · split
        · exact plain_quiet _
        · refine plain_say _ ?_
          simp only [String.append_assoc]
          exact hv.append _ h5
  · intro u hu
    cases hu

theorem plain_setupFesP (sh : Shows) (w : World R) (o : Dict (OptVal ℝ)) (ld : LdCfg ℝ d) (h : Histogram ℝ) :
    (setupFesP sh w o ld h).Plain := by
  refine (plain_quiet _).bind (fun _ => (plain_quiet _).bind (fun _ => (plain_quiet _).bind (fun _ =>
    (plain_quiet _).bind (fun _ => (plain_quiet _).bind (fun _ => (plain_quiet _).bind (fun _ =>
    (plain_quiet _).bind (fun _ => (plain_quiet _).bind (fun _ => (plain_say _ (by decide)).bind (fun _ =>
    (plain_say _ ?_).bind (fun _ => (plain_quiet _).bind (fun _ => (plain_sayIf _ _ ?_).bind (fun _ =>
    (plain_quiet _).bind (fun _ => (plain_fesStrideP _ _ (by decide) (by decide) _ _ _).bind (fun _ =>
    (plain_fesStrideP _ _ (by decide) (by decide) _ _ _).bind (fun _ => (plain_quiet _).bind (fun _ =>
    (plain_say _ (by decide)).bind (fun _ => plain_pure _)))))))))))))))))
  · ordinary
  · ordinary

theorem ordinary_seriesMessage (what : String) (stride : Option Nat) (filename : Option String) :
    Ordinary (seriesMessage what stride filename) := by
  unfold seriesMessage
  ordinary

theorem plain_setupDeltaFP (w : World R) (o : Dict (OptVal ℝ)) (kt dt : ℝ) (fs : Option Nat) (h : Histogram ℝ) :
    (setupDeltaFP w o kt dt fs h).Plain :=
  (plain_quiet _).bind (fun _ => (plain_quiet _).bind (fun _ => (plain_say _ (by decide)).bind (fun _ =>
    (plain_quiet _).bind (fun _ => (plain_quiet _).bind (fun _ => (plain_quiet _).bind (fun _ =>
    (plain_sayIf _ _ (by decide)).bind (fun _ => (plain_quiet _).bind (fun _ =>
    (plain_sayIf _ _ (ordinary_seriesMessage _ _ _)).bind (fun _ => (plain_say _ (by decide)).bind
    (fun _ => plain_pure _))))))))))

theorem plain_setupDistributionP (w : World R) (o : Dict (OptVal ℝ)) : (setupDistributionP w o).Plain :=
  (plain_quiet _).bind (fun _ => (plain_quiet _).bind (fun _ => (plain_quiet _).bind (fun _ =>
    (plain_say _ (by decide)).bind (fun _ => (plain_quiet _).bind (fun _ =>
    (plain_sayIf _ _ (ordinary_seriesMessage _ _ _)).bind (fun _ => (plain_say _ (by decide)).bind
    (fun _ => plain_pure _)))))))

theorem plain_setupOptionalP (sh : Shows) (w : World R) (config : Input ℝ) (c : SimCfg d) (s : Sim d R) :
    (setupOptionalP sh w config c s).Plain := by
  refine Prints.Plain.bind ?_ (fun x1 => Prints.Plain.bind ?_ (fun x2 => Prints.Plain.bind ?_ (fun x3 =>
    Prints.Plain.bind ?_ (fun x4 => Prints.Plain.bind ?_ (fun x5 => ?_)))))
  · split
    · exact plain_pure _
    · exact (plain_setupBirthDeathP _ _ _ _).bind (fun _ => plain_pure _)
  · split
    · exact plain_pure _
    · exact (plain_setupTrajectoriesP _ _ _ _ _).bind (fun _ => plain_pure _)
  · split
    · exact plain_pure _
    · exact (plain_quiet _).bind (fun _ => (plain_setupHistogramP _ _ _ _).bind (fun _ => plain_pure _))
  · split
    · exact plain_pure _
    · exact (plain_quiet _).bind (fun _ => (plain_setupFesP _ _ _ _ _).bind (fun _ => plain_pure _))
  · split
    · exact plain_pure _
    · exact (plain_quiet _).bind (fun _ => (plain_quiet _).bind (fun _ => (plain_setupDeltaFP _ _ _ _ _ _).bind
        (fun _ => plain_pure _)))
  · obtain ⟨c', s'⟩ := x5
    dsimp only
    split
    · exact plain_pure _
    · exact (plain_setupDistributionP _ _).bind (fun _ => plain_pure _)

theorem plain_newReports (sh : Shows) (f : Option String) (s s' : Sim d R) : ∀ t ∈ newReports sh f s s', Ordinary t := by
  intro t ht
  obtain ⟨r, _, ht⟩ := List.mem_flatMap.1 ht
  cases r with
  | line l => cases ht
  | report step st dup kill succ att =>
    simp only [reportText, List.mem_cons, List.not_mem_nil, or_false] at ht
    rcases ht with rfl | rfl | rfl | rfl | rfl <;> ordinary

theorem plain_foldP {α β : Type} (f : β → α → Prints β) (hf : ∀ b a, (f b a).Plain) : ∀ (l : List α) (b : β),
    (foldP f b l).Plain
  | [], b => plain_pure b
  | a :: l, b => (hf b a).bind (fun c => plain_foldP f hf l c)

theorem plain_runStepsP (sh : Shows) (w : World R) (f : Option String) (c : SimCfg d) : ∀ (n : Nat) (s : Sim d R),
    (runStepsP sh w f c n s).Plain
  | 0, s => plain_pure s
  | n + 1, s => (plain_runStepsP sh w f c n s).bind (fun _ => plain_foldP _ (fun b _ => (plain_quiet _).bind
      (fun s'' => (plain_sayAll _ (plain_newReports sh f b s'')).bind (fun _ => plain_pure _))) _ _)

theorem plain_final (sh : Shows) (f : Option String) (c : SimCfg d) (n : Nat) (s : Sim d R) (l : List ActName) :
    (foldP (finalEventP sh f c n) s l).Plain :=
  plain_foldP _ (fun b _ => (plain_quiet _).bind
      (fun s'' => (plain_sayAll _ (plain_newReports sh f b s'')).bind (fun _ => plain_pure _))) _ _

/-! ### How far the program came -/

/-- The input is read and all actions are set up. -/
def Spec.SetupDone (w : World R) (file : Option (List Section)) (n : Int) : Prop :=
  ∃ config r x, parseAll 1 w.conv file = .ok config ∧ setupRequired w config = .ok r ∧
    setupOptional w config r.cfg r.sim = .ok x ∧ config.ld.get? "n_steps" = some (.base (.int n))

/-- All steps are done, too. -/
def Spec.StepsDone (w : World R) (file : Option (List Section)) : Prop :=
  ∃ config r x s, ∃ n : Int, parseAll 1 w.conv file = .ok config ∧ setupRequired w config = .ok r ∧
    setupOptional w config r.cfg r.sim = .ok x ∧ config.ld.get? "n_steps" = some (.base (.int n)) ∧
    runSteps w x.1 n.toNat x.2 = .ok s

theorem mem_bind_out {α β : Type} (x : Prints α) (f : α → Prints β) (t : String) :
    t ∈ (x >>= f).out ↔ t ∈ x.out ∨ ∃ a, x.res = .ok a ∧ t ∈ (f a).out := by
  rcases h : x.res with e | a
  · rw [Prints.bind_out_error x f e h]
    simp
  · rw [Prints.bind_out_ok x f a h, List.mem_append]
    simp

theorem toString_int_inj {n m : Int} (h : toString n = toString m) : n = m := by
  have h' : n.repr = m.repr := h
  exact Int.repr_inj.1 h'

theorem steps_option {config : Input ℝ} {n : Int} (h : (config.ld.getItem "n_steps").bind OptVal.asInt = .ok n) :
    config.ld.get? "n_steps" = some (.base (.int n)) := by
  obtain ⟨v, h1, h2⟩ := bind_ok h
  rw [getItem_inv h1, asInt_inv h2]

theorem option_steps {config : Input ℝ} {n : Int} (h : config.ld.get? "n_steps" = some (.base (.int n))) :
    (config.ld.getItem "n_steps").bind OptVal.asInt = .ok n := by
  rw [Dict.getItem, h]
  rfl

/-- A message about the progress is not printed by anything else. -/
theorem progress_mem (sh : Shows) (w : World R) (file : Option (List Section)) (t : String) (ht : ¬ Ordinary t)
    (h0 : t ≠ "Starting bdld code v0.3.2\n\n") :
    t ∈ (mainP sh w file).out ↔ ∃ n : Int, SetupDone w file n ∧ (t = "Setup finished, now running for " ++ toString n ++ " steps" ∨
      StepsDone w file ∧ (t = "Simulation finished, performing final actions" ∨
        (∃ a, mainProgram w file = .finished a) ∧ t = "Finished without errors")) := by
  constructor
  · intro h
    have hres : ∀ a, (mainP sh w file).res = .ok a → mainProgram w file = .finished a :=
      fun a ha => (mainP_finished sh w file a).2 ha
    unfold mainP at h hres
    rw [Prints.say_bind_out, List.mem_cons] at h
    rcases h with h | h
    · exact absurd h h0
    rw [mem_bind_out, quiet_out] at h
    rcases h with h | ⟨config, hc, h⟩
    · cases h
    rw [quiet_res] at hc
    unfold mainFromP at h hres
    rw [mem_bind_out, setupRequiredP_res] at h
    rcases h with h | ⟨r, hr, h⟩
    · exact absurd (plain_setupRequiredP sh w config t h) ht
    rw [mem_bind_out, setupOptionalP_res] at h
    rcases h with h | ⟨x, hx, h⟩
    · exact absurd (plain_setupOptionalP sh w config _ _ t h) ht
    rw [mem_bind_out, quiet_out, quiet_res] at h
    rcases h with h | ⟨n, hn, h⟩
    · cases h
    have hS : SetupDone w file n := ⟨config, r, x, hc, hr, hx, steps_option hn⟩
    refine ⟨n, hS, ?_⟩
    rw [Prints.say_bind_out, List.mem_cons] at h
    rcases h with h | h
    · exact Or.inl h
    rw [mem_bind_out, runStepsP_res] at h
    rcases h with h | ⟨s, hs, h⟩
    · exact absurd (plain_runStepsP sh w _ _ _ _ t h) ht
    refine Or.inr ⟨⟨config, r, x, s, n, hc, hr, hx, steps_option hn, hs⟩, ?_⟩
    rw [Prints.say_bind_out, List.mem_cons] at h
    rcases h with h | h
    · exact Or.inl h
    rw [mem_bind_out, foldP_res _ _ (finalEventP_res sh (statsFilename config) x.1 n.toNat)] at h
    rcases h with h | ⟨s', hs', h⟩
    · exact absurd (plain_final sh _ _ _ _ _ t h) ht
    rw [Prints.say_bind_out, List.mem_cons, Prints.pure_out] at h
    rcases h with h | h
    · refine Or.inr ⟨⟨⟨r.d, x.1, s'⟩, hres _ ?_⟩, h⟩
      simp only [Prints.bind_res, quiet_res, say_res, ok_bind, hc, hr, hx, hn, setupRequiredP_res, setupOptionalP_res,
        runStepsP_res, hs, foldP_res _ _ (finalEventP_res sh (statsFilename config) x.1 n.toNat), hs', Prints.pure_res]
    · cases h
  · rintro ⟨n, ⟨config, r, x, hc, hr, hx, hn⟩, h⟩
    unfold mainP
    rw [Prints.say_bind_out, List.mem_cons, Prints.quiet_bind_out _ _ _ hc]
    right
    unfold mainFromP
    rw [mem_bind_out, setupRequiredP_res]
    refine Or.inr ⟨r, hr, ?_⟩
    rw [mem_bind_out, setupOptionalP_res]
    refine Or.inr ⟨x, hx, ?_⟩
    rw [Prints.quiet_bind_out _ _ _ (option_steps hn), Prints.say_bind_out, List.mem_cons]
    rcases h with h | ⟨⟨config', r', x', s, n', hc', hr', hx', hn', hs⟩, h⟩
    · exact Or.inl h
    right
    rw [hc] at hc'; cases hc'
    rw [hr] at hr'; cases hr'
    rw [hx] at hx'; cases hx'
    rw [hn] at hn'; cases hn'
    rw [mem_bind_out, runStepsP_res]
    refine Or.inr ⟨s, hs, ?_⟩
    rw [Prints.say_bind_out, List.mem_cons]
    rcases h with h | ⟨⟨a, ha⟩, h⟩
    · exact Or.inl h
    right
    rw [mainP_finished sh] at ha
    unfold mainP mainFromP at ha
    simp only [Prints.bind_res, quiet_res, say_res, ok_bind, hc, hr, hx, option_steps hn, setupRequiredP_res,
      setupOptionalP_res, runStepsP_res, hs, foldP_res _ _ (finalEventP_res sh (statsFilename config) x.1 n.toNat),
      Prints.pure_res] at ha
    obtain ⟨s', hs', -⟩ := bind_ok ha
    rw [mem_bind_out, foldP_res _ _ (finalEventP_res sh (statsFilename config) x.1 n.toNat)]
    refine Or.inr ⟨s', hs', ?_⟩
    rw [Prints.say_bind_out, List.mem_cons]
    exact Or.inl h

theorem finished_setupDone {w : World R} {file : Option (List Section)} {a : AnySim R} (h : mainProgram w file = .finished a) :
    (∃ n, SetupDone w file n) ∧ StepsDone w file := by
  obtain ⟨config, r, x, n, s, hp, hr, hx, hn, hs, rfl⟩ := main_inv w file a h
  obtain ⟨u, hu, -⟩ := bind_ok hs
  exact ⟨⟨n, config, r, x, hp, hr, hx, hn⟩, config, r, x, u, n, hp, hr, hx, hn, hu⟩

/-- **C136.** `Finished without errors` is printed exactly if the program finishes without exception. -/
theorem finished_message_iff (sh : Shows) (w : World R) (file : Option (List Section)) :
    "Finished without errors" ∈ (mainP sh w file).out ↔ ∃ a, mainProgram w file = .finished a := by
  rw [progress_mem sh w file _ (by decide) (by decide)]
  constructor
  · rintro ⟨n, -, h | ⟨-, h | ⟨h, -⟩⟩⟩
    · have := congrArg first5 h
      rw [String.append_assoc, first5_append _ _ (by decide)] at this
      exact absurd this (by decide)
    · exact absurd h (by decide)
    · exact h
  · rintro ⟨a, ha⟩
    obtain ⟨⟨n, hn⟩, hs⟩ := finished_setupDone ha
    exact ⟨n, hn, Or.inr ⟨hs, Or.inr ⟨⟨a, ha⟩, rfl⟩⟩⟩

/-- **C136.** `Simulation finished` is printed exactly if all steps are done. -/
theorem steps_message_iff (sh : Shows) (w : World R) (file : Option (List Section)) :
    "Simulation finished, performing final actions" ∈ (mainP sh w file).out ↔ StepsDone w file := by
  rw [progress_mem sh w file _ (by decide) (by decide)]
  constructor
  · rintro ⟨n, -, h | ⟨h, -⟩⟩
    · have := congrArg first5 h
      rw [String.append_assoc, first5_append _ _ (by decide)] at this
      exact absurd this (by decide)
    · exact h
  · intro hs
    obtain ⟨config, r, x, s, n, h1, h2, h3, h4, h5⟩ := hs
    exact ⟨n, ⟨config, r, x, h1, h2, h3, h4⟩, Or.inr ⟨⟨config, r, x, s, n, h1, h2, h3, h4, h5⟩, Or.inl rfl⟩⟩

/-- **C136.** `Setup finished` is printed exactly if everything is set up, with the number of steps of the input file. -/
theorem setup_message_iff (sh : Shows) (w : World R) (file : Option (List Section)) (n : Int) :
    "Setup finished, now running for " ++ toString n ++ " steps" ∈ (mainP sh w file).out ↔ SetupDone w file n := by
  have hf : first5 ("Setup finished, now running for " ++ toString n ++ " steps") = "Setup".toList := by
    rw [String.append_assoc, first5_append _ _ (by decide)]
    decide
  rw [progress_mem sh w file _ (fun h => h.2.1 hf) (fun h => by
    have := congrArg first5 h
    rw [hf] at this
    exact absurd this (by decide))]
  constructor
  · rintro ⟨m, hm, h | ⟨-, h | ⟨-, h⟩⟩⟩
    · rw [String.append_assoc, String.append_assoc, String.append_right_inj, String.append_left_inj] at h
      rw [toString_int_inj h]
      exact hm
    · have := congrArg first5 h
      rw [hf] at this
      exact absurd this (by decide)
    · have := congrArg first5 h
      rw [hf] at this
      exact absurd this (by decide)
  · intro h
    exact ⟨n, h, Or.inl rfl⟩

end Bdld
