import Verif.Files.Lemmas

/-! # The files of messages, and the screen -/

namespace Verif.Files

/-! ## Helpers about one call and about sequences -/

theorem run_append (ok : String → Bool) (s : St) (a b : List Call) :
    run ok s (a ++ b) = run ok (run ok s a) b := by simp [run, List.foldl_append]

theorem run_cons (ok : String → Bool) (s : St) (c : Call) (b : List Call) :
    run ok s (c :: b) = run ok (s.call ok c).1 b := rfl

/-- A call that neither opens nor closes writes its text, and keeps the files that are open. -/
theorem plain_call (ok : String → Bool) {s : St} (g : Good s) {c : Call} (h : c.Plain) :
    (s.call ok c).1.log = s.log ∧ (s.call ok c).1.out = s.out ∧ Good (s.call ok c).1 ∧
    ∀ k, (s.call ok c).1.fs k = (s.fs k).map (· ++ share s k (toLog c) (toOut c)) := by
  have key : ∀ s' a b, Wrote s s' a b → s'.log = s.log ∧ s'.out = s.out ∧ Good s' ∧
      ∀ k, s'.fs k = (s.fs k).map (· ++ share s k a b) := fun s' a b w =>
    ⟨w.1.2.2.1, w.1.2.1, g.same w.1, w.2⟩
  have none : ∀ k, s.fs k = (s.fs k).map (· ++ share s k [] []) := fun k => by simp [share]
  cases c with
  | «open» => exact absurd rfl h.1
  | close => exact absurd rfl h.2
  | setPrefix p =>
    show (s.setPrefix p).1.log = _ ∧ _
    have g' : Good ({ s with err := [], pfx := p } : St) := g
    by_cases e : p = ""
    · subst e
      have w := wrote_refusal g'
      have : (s.setPrefix "").1 = (({ s with err := [], pfx := "" } : St).finish .invalidArg
          "PhreeqcRM::SetFilePrefix").1 := by simp [St.setPrefix]
      rw [show (s.call ok (.setPrefix "")).1 = (s.setPrefix "").1 from rfl, this]
      refine ⟨w.1.2.2.1, w.1.2.1, g'.same w.1, ?_⟩
      have := w.2
      simpa [toLog, toOut, share] using this
    · have : (s.setPrefix p).1 = ({ s with err := [], pfx := p } : St) := by
        simp [St.setPrefix, e, St.finish, IRM.toInt]
      rw [show (s.call ok (.setPrefix p)).1 = (s.setPrefix p).1 from rfl, this]
      refine ⟨rfl, rfl, g', fun k => ?_⟩
      simpa [toLog, toOut, e] using none k
  | setScreenOn b => exact ⟨rfl, rfl, g, none⟩
  | setErrorOn b => exact ⟨rfl, rfl, g, none⟩
  | outputMessage t => exact key _ _ _ (wrote_out g t)
  | logMessage t => exact key _ _ _ (wrote_log g t)
  | screenMessage t => exact key _ _ _ (wrote_screen s t)
  | warningMessage t => exact key _ _ _ (wrote_warning g t)
  | errorMessage t p => exact key _ _ _ (wrote_error g t p)

theorem plain_run (ok : String → Bool) (cs : List Call) : ∀ {s : St}, Good s → (∀ c ∈ cs, c.Plain) →
    ∀ k, (run ok s cs).fs k = (s.fs k).map (· ++ share s k (cs.flatMap toLog) (cs.flatMap toOut)) := by
  induction cs with
  | nil => intro s _ _ k; simp [run, share]
  | cons c cs ih =>
    intro s g h k
    obtain ⟨hl, ho, g', hf⟩ := plain_call ok g (h c (by simp))
    have e : ∀ a b, share (s.call ok c).1 k a b = share s k a b := fun a b => by
      unfold share; rw [hl, ho]
    rw [run_cons, ih g' (fun x hx => h x (by simp [hx])) k, hf k, e, Option.map_map]
    congr 1
    funext x
    simp only [Function.comp, share, List.flatMap_cons]
    split
    · simp
    · split <;> simp

theorem fail_keeps (s : St) (t n : String) :
    SameSet s (((s.decode .fail).errorMessage t true).finish .fail n).1 :=
  ((same_error _ _ _).trans (same_error _ _ _)).trans (same_finish_fail _ _)

theorem pfx_call (ok : String → Bool) (s : St) (c : Call) (h : ∀ x, c ≠ .setPrefix x) :
    (s.call ok c).1.pfx = s.pfx := by
  cases c with
  | «open» =>
    show (s.openFiles ok).1.pfx = _
    unfold St.openFiles
    dsimp only
    split
    · split
      · simp [St.finish, IRM.toInt, St.closeFiles]
      · exact (fail_keeps _ _ _).1
    · exact (fail_keeps _ _ _).1
  | setPrefix p => exact absurd rfl (h p)
  | outputMessage t => exact (same_out s t).1
  | logMessage t => exact (same_log s t).1
  | screenMessage t => exact (same_screen s t).1
  | warningMessage t => exact (same_warning s t).1
  | errorMessage t p => exact (same_error s t p).1
  | _ => rfl

theorem pfx_set (ok : String → Bool) (s : St) (p : String) : (s.call ok (.setPrefix p)).1.pfx = p := by
  show (s.setPrefix p).1.pfx = p
  unfold St.setPrefix
  dsimp only
  split
  · exact (same_finish_invalid _ _).1
  · simp [St.finish, IRM.toInt]

theorem pfx_run (ok : String → Bool) (cs : List Call) : ∀ s : St, (∀ x, Call.setPrefix x ∉ cs) →
    (run ok s cs).pfx = s.pfx := by
  induction cs with
  | nil => intro s _; rfl
  | cons c cs ih =>
    intro s h
    rw [run_cons, ih _ (fun x hx => h x (by simp [hx]))]
    exact pfx_call ok s c (fun x e => h x (by simp [e]))

theorem pfx_last (ok : String → Bool) (fs : FS) {cs : List Call} {p : String} (h : LastPrefix cs p) :
    (run ok (new fs) cs).pfx = p := by
  rcases h with ⟨a, b, rfl, hb⟩ | ⟨rfl, h⟩
  · rw [run_append, run_cons, pfx_run ok b _ hb, pfx_set]
  · rw [pfx_run ok cs _ h]; rfl

/-- The state when the log file `l` is open, and `o` is the output file. -/
def opened (s : St) (l : String) (o : Option String) (f : FS) : St :=
  { s with err := [], logOn := true, log := some l, out := o, fs := f }

/-- `OpenFiles` that can open both. -/
theorem open_both (ok : String → Bool) (s : St) (h1 : ok (s.pfx ++ ".log.txt") = true)
    (h2 : ok (s.pfx ++ ".chem.txt") = true) :
    s.openFiles ok = (opened s (s.pfx ++ ".log.txt") (some (s.pfx ++ ".chem.txt"))
      (create (create s.fs (s.pfx ++ ".log.txt")) (s.pfx ++ ".chem.txt")), .ok) := by
  simp [opened, St.openFiles, St.closeFiles, h1, h2, St.finish, IRM.toInt]

/-! ## The theorems -/

/-- **C198.** Whatever was done before, once `OpenFiles` has opened the two files of the prefix set last, the log file
holds the log, warning and error messages since then and nothing else, in order; the output file holds the output, warning
and error messages; and no other file changes. -/
theorem files_hold (ok : String → Bool) (fs : FS) (pre post : List Call) (p : String)
    (hp : LastPrefix pre p) (h1 : ok (p ++ ".log.txt") = true) (h2 : ok (p ++ ".chem.txt") = true)
    (hpost : ∀ c ∈ post, c.Plain) :
    ((run ok (new fs) pre).call ok .open).2 = .ok ∧
    (run ok (new fs) (pre ++ .open :: post)).fs (p ++ ".log.txt") = some (post.flatMap toLog) ∧
    (run ok (new fs) (pre ++ .open :: post)).fs (p ++ ".chem.txt") = some (post.flatMap toOut) ∧
    ∀ k, k ≠ p ++ ".log.txt" → k ≠ p ++ ".chem.txt" →
      (run ok (new fs) (pre ++ .open :: post)).fs k = (run ok (new fs) pre).fs k := by
  have e := pfx_last ok fs hp
  rw [run_append, run_cons]
  generalize run ok (new fs) pre = s at e ⊢
  subst e
  show (s.openFiles ok).2 = _ ∧ (run ok (s.openFiles ok).1 post).fs _ = _ ∧
    (run ok (s.openFiles ok).1 post).fs _ = _ ∧ ∀ k, _ → _ → (run ok (s.openFiles ok).1 post).fs k = _
  rw [open_both ok s h1 h2]
  have ne := log_ne_chem s.pfx
  generalize s.pfx ++ ".log.txt" = l at *
  generalize s.pfx ++ ".chem.txt" = c at *
  have r := plain_run ok post (s := opened s l (some c) (create (create s.fs l) c)) ⟨fun n hn => by
      simp only [opened, Option.some.injEq] at hn; subst hn; simpa [opened] using fun x => ne x.symm, fun _ => rfl⟩ hpost
  have ne' : ¬ c = l := fun x => ne x.symm
  refine ⟨rfl, ?_, ?_, fun k kl kc => ?_⟩
  · rw [r l]; simp [opened, create, share, ne]
  · rw [r c]; simp [opened, create, share, ne]
  · rw [r k]
    have kl' : ¬ l = k := fun x => kl x.symm
    have kc' : ¬ c = k := fun x => kc x.symm
    simp [opened, create, share, kl, kc, kl', kc']

/-- Without open files no call but `OpenFiles` changes a file. -/
theorem silent (ok : String → Bool) (cs : List Call) : ∀ s : St, s.log = none → s.out = none →
    (∀ c ∈ cs, c ≠ .open) → (run ok s cs).fs = s.fs := by
  induction cs with
  | nil => intro s _ _ _; rfl
  | cons c cs ih =>
    intro s hl ho h
    rw [run_cons]
    by_cases hc : c = .close
    · subst hc
      rw [ih _ rfl rfl (fun x hx => h x (by simp [hx]))]; rfl
    · have g : Good s := ⟨fun n hn => by simp [hl] at hn, fun x => absurd hl x⟩
      obtain ⟨a, b, _, f⟩ := plain_call ok g (c := c) ⟨h c (by simp), hc⟩
      rw [ih _ (a.trans hl) (b.trans ho) (fun x hx => h x (by simp [hx]))]
      funext k
      rw [f k]; simp [share, hl, ho]

/-- **C199.** After `CloseFiles`, and until files are opened again, no call changes any file; nor does any before files are
opened for the first time. -/
theorem closed_silent (ok : String → Bool) (fs : FS) (pre post : List Call) (hpost : ∀ c ∈ post, c ≠ .open) :
    (run ok (new fs) (pre ++ .close :: post)).fs = (run ok (new fs) pre).fs ∧
    (run ok (new fs) post).fs = fs := by
  refine ⟨?_, silent ok post _ rfl rfl hpost⟩
  rw [run_append, run_cons, silent ok post _ rfl rfl hpost]
  rfl

/-- **C200, part.** When the log file cannot be opened, `OpenFiles` fails, and neither it nor the messages after it change
a file. Missing: the same when only the output file cannot be opened, which is false (`half_open`), and a refused
prefix (`empty_prefix_kept`). -/
theorem open_refused_partial (ok : String → Bool) (fs : FS) (pre post : List Call) (p : String)
    (hp : LastPrefix pre p) (h1 : ok (p ++ ".log.txt") = false) (hpost : ∀ c ∈ post, c ≠ .open) :
    ((run ok (new fs) pre).call ok .open).2 = .fail ∧
    (run ok (new fs) (pre ++ .open :: post)).fs = (run ok (new fs) pre).fs := by
  have e := pfx_last ok fs hp
  rw [run_append, run_cons]
  generalize run ok (new fs) pre = s at e ⊢
  subst e
  show (s.openFiles ok).2 = _ ∧ (run ok (s.openFiles ok).1 post).fs = _
  have e : s.openFiles ok = (((({ s with err := [] } : St).closeFiles.decode .fail).errorMessage
      "Failed to open .log.txt file" true).finish .fail "PhreeqcRM::OpenFiles") := by
    simp [St.openFiles, St.closeFiles, h1]
  have f : (({ s with err := [] } : St).closeFiles).fs = s.fs := rfl
  have hl : (({ s with err := [] } : St).closeFiles).log = none := rfl
  have ho : (({ s with err := [] } : St).closeFiles).out = none := rfl
  rw [e]
  generalize ({ s with err := [] } : St).closeFiles = u at *
  have k := fail_keeps u "Failed to open .log.txt file" "PhreeqcRM::OpenFiles"
  have g : Good u := ⟨fun n hn => by simp [hl] at hn, fun x => absurd hl x⟩
  refine ⟨?_, ?_⟩
  · unfold St.finish; rw [if_pos (by decide)]
  · rw [silent ok post _ (k.2.2.1.trans hl) (k.2.1.trans ho) hpost]
    unfold St.finish
    rw [if_pos (by decide)]
    dsimp only [St.decode]
    have w1 := wrote_error g "PhreeqcRM failed." true
    have g1 := g.same w1.1
    have w2 := wrote_error g1 "Failed to open .log.txt file" true
    have g2 := g1.same w2.1
    have w3 := wrote_error g2 "PhreeqcRM failed." true
    have g3 := g2.same w3.1
    have w4 := wrote_error g3 "PhreeqcRM::OpenFiles" true
    have w5 := wrote_error (g3.same w4.1) "\n" false
    have w := (((w1.trans w2).trans w3).trans w4).trans w5
    funext n
    rw [w.2 n, f]; simp [share, hl, ho]

/-- **C200, violated.** When the output file cannot be opened, `OpenFiles` fails but has emptied the log file and leaves it
open: the file holds the messages of the failure, and then the log messages that follow. -/
theorem half_open (ok : String → Bool) (s : St) (post : List Call)
    (h1 : ok (s.pfx ++ ".log.txt") = true) (h2 : ok (s.pfx ++ ".chem.txt") = false)
    (hpost : ∀ c ∈ post, c.Plain) :
    (s.call ok .open).2 = .fail ∧
    (run ok s (.open :: post)).fs (s.pfx ++ ".log.txt") = some (
      [errorLine "PhreeqcRM failed." true, errorLine "Failed to open .chem.txt file" true,
        errorLine "PhreeqcRM failed." true, errorLine "PhreeqcRM::OpenFiles" true, errorLine "\n" false]
      ++ post.flatMap toLog) := by
  have e : s.openFiles ok = (((opened s (s.pfx ++ ".log.txt") none (create s.fs (s.pfx ++ ".log.txt"))).decode
        .fail).errorMessage "Failed to open .chem.txt file" true).finish .fail "PhreeqcRM::OpenFiles" := by
    simp [opened, St.openFiles, St.closeFiles, h1, h2]
  generalize s.pfx ++ ".log.txt" = l at *
  have g : Good (opened s l none (create s.fs l)) := ⟨fun n _ => by simp [opened], fun _ => rfl⟩
  have hl : (opened s l none (create s.fs l)).log = some l := rfl
  have hf : (opened s l none (create s.fs l)).fs l = some [] := by simp [opened, create]
  generalize opened s l none (create s.fs l) = u at *
  rw [run_cons]
  show (s.openFiles ok).2 = _ ∧ (run ok (s.openFiles ok).1 post).fs l = _
  rw [e]
  unfold St.finish
  rw [if_pos (by decide)]
  dsimp only [St.decode]
  have w1 := wrote_error g "PhreeqcRM failed." true
  have g1 := g.same w1.1
  have w2 := wrote_error g1 "Failed to open .chem.txt file" true
  have g2 := g1.same w2.1
  have w3 := wrote_error g2 "PhreeqcRM failed." true
  have g3 := g2.same w3.1
  have w4 := wrote_error g3 "PhreeqcRM::OpenFiles" true
  have g4 := g3.same w4.1
  have w5 := wrote_error g4 "\n" false
  have g5 := g4.same w5.1
  have w := (((w1.trans w2).trans w3).trans w4).trans w5
  refine ⟨rfl, ?_⟩
  rw [plain_run ok post g5 hpost l, w.2 l, hf]
  unfold share
  rw [w.1.2.2.1, hl, if_pos rfl, if_pos rfl]
  simp only [Option.map_some, List.nil_append, List.cons_append]

/-- **C200, violated.** An empty prefix is refused, and used all the same. -/
theorem empty_prefix_kept (ok : String → Bool) (s : St) :
    (s.call ok (.setPrefix "")).2 = .invalidArg ∧ (s.call ok (.setPrefix "")).1.pfx = "" := by
  refine ⟨?_, pfx_set ok s ""⟩
  show (s.setPrefix "").2 = _
  unfold St.setPrefix St.finish
  simp [IRM.toInt]

/-! ## The screen -/

theorem screen_out (s : St) (t : String) : (s.outputMsg t).screen = s.screen := by
  unfold St.outputMsg; split <;> rfl

theorem screen_log (s : St) (t : String) : (s.logMsg t).screen = s.screen := by
  unfold St.logMsg; split
  · split <;> rfl
  · rfl

theorem screen_screen (s : St) (t : String) :
    (s.screenMsg t).screen = s.screen ++ if s.screenOn then [t] else [] := by
  unfold St.screenMsg; split <;> simp

theorem screen_error (s : St) (t : String) (p : Bool) : (s.errorMessage t p).screen =
    s.screen ++ if s.screenOn && s.errorOn then [errorLine t p] else [] := by
  unfold St.errorMessage
  dsimp only
  change ((((({ s with err := s.err ++ [errorLine t p] } : St).outputMsg (errorLine t p)).logMsg
    (errorLine t p)).errorMsg (errorLine t p))).screen = _
  generalize errorLine t p = e
  have h : SameSet s ((({ s with err := s.err ++ [e] } : St).outputMsg e).logMsg e) :=
    (SameSet.trans (by simp [SameSet]) (same_out _ _)).trans (same_log _ _)
  unfold St.errorMsg
  rw [h.2.2.2.2.1]
  split
  · rename_i he
    rw [screen_screen, screen_log, screen_out, h.2.2.2.2.2]; simp [he]
  · rename_i he
    rw [screen_log, screen_out]; simp [he]

theorem screen_warning (s : St) (t : String) : (s.warningMsg t).screen =
    s.screen ++ if s.screenOn && s.errorOn then [t ++ "\n"] else [] := by
  unfold St.warningMsg
  rw [screen_out, screen_log]
  split
  · rename_i he
    rw [screen_screen]; simp [he]
  · rename_i he
    simp [he]

theorem switch_call (ok : String → Bool) (s : St) (c : Call) :
    ((∀ x, c ≠ .setScreenOn x) → (s.call ok c).1.screenOn = s.screenOn) ∧
    ((∀ x, c ≠ .setErrorOn x) → (s.call ok c).1.errorOn = s.errorOn) := by
  have key : ∀ {s' : St}, SameSet s s' → ((∀ x, c ≠ .setScreenOn x) → s'.screenOn = s.screenOn) ∧
      ((∀ x, c ≠ .setErrorOn x) → s'.errorOn = s.errorOn) := fun h => ⟨fun _ => h.2.2.2.2.2, fun _ => h.2.2.2.2.1⟩
  cases c with
  | «open» =>
    show (_ → (s.openFiles ok).1.screenOn = _) ∧ (_ → (s.openFiles ok).1.errorOn = _)
    unfold St.openFiles
    dsimp only
    split
    · split
      · simp [St.finish, IRM.toInt, St.closeFiles]
      · have h := fail_keeps
        exact ⟨fun _ => (h _ _ _).2.2.2.2.2, fun _ => (h _ _ _).2.2.2.2.1⟩
    · have h := fail_keeps
      exact ⟨fun _ => (h _ _ _).2.2.2.2.2, fun _ => (h _ _ _).2.2.2.2.1⟩
  | close => exact ⟨fun _ => rfl, fun _ => rfl⟩
  | setPrefix p =>
    show (_ → (s.setPrefix p).1.screenOn = _) ∧ (_ → (s.setPrefix p).1.errorOn = _)
    unfold St.setPrefix
    dsimp only
    split
    · have h := same_finish_invalid
      exact ⟨fun _ => (h _ _).2.2.2.2.2, fun _ => (h _ _).2.2.2.2.1⟩
    · simp [St.finish, IRM.toInt]
  | setScreenOn b => exact ⟨fun h => absurd rfl (h b), fun _ => rfl⟩
  | setErrorOn b => exact ⟨fun _ => rfl, fun h => absurd rfl (h b)⟩
  | outputMessage t => exact key (same_out s t)
  | logMessage t => exact key (same_log s t)
  | screenMessage t => exact key (same_screen s t)
  | warningMessage t => exact key (same_warning s t)
  | errorMessage t p => exact key (same_error s t p)

theorem switch_run (ok : String → Bool) (cs : List Call) : ∀ s : St,
    ((∀ x, Call.setScreenOn x ∉ cs) → (run ok s cs).screenOn = s.screenOn) ∧
    ((∀ x, Call.setErrorOn x ∉ cs) → (run ok s cs).errorOn = s.errorOn) := by
  induction cs with
  | nil => intro s; exact ⟨fun _ => rfl, fun _ => rfl⟩
  | cons c cs ih =>
    intro s
    rw [run_cons]
    refine ⟨fun h => ?_, fun h => ?_⟩
    · rw [(ih _).1 (fun x hx => h x (by simp [hx]))]
      exact (switch_call ok s c).1 (fun x e => h x (by simp [e]))
    · rw [(ih _).2 (fun x hx => h x (by simp [hx]))]
      exact (switch_call ok s c).2 (fun x e => h x (by simp [e]))

/-- **C201.** A call other than `OpenFiles` shows its text on the screen exactly as the switches set last say. Error and warning messages
need both switches. -/
theorem screen_shows (ok : String → Bool) (fs : FS) (pre : List Call) (c : Call) (b e : Bool)
    (hb : LastScreen pre b) (he : LastError pre e) (hc : c ≠ .open) :
    (run ok (new fs) (pre ++ [c])).screen = (run ok (new fs) pre).screen ++ toScreen b e c := by
  have h1 : (run ok (new fs) pre).screenOn = b := by
    rcases hb with ⟨x, y, rfl, hy⟩ | ⟨rfl, h⟩
    · rw [run_append, run_cons, (switch_run ok y _).1 hy]; rfl
    · rw [(switch_run ok pre _).1 h]; rfl
  have h2 : (run ok (new fs) pre).errorOn = e := by
    rcases he with ⟨x, y, rfl, hy⟩ | ⟨rfl, h⟩
    · rw [run_append, run_cons, (switch_run ok y _).2 hy]; rfl
    · rw [(switch_run ok pre _).2 h]; rfl
  rw [run_append]
  generalize run ok (new fs) pre = s at *
  subst h1 h2
  show (s.call ok c).1.screen = _
  cases c with
  | «open» => exact absurd rfl hc
  | setPrefix p =>
    show (s.setPrefix p).1.screen = _
    by_cases hp : p = ""
    · subst hp
      unfold St.setPrefix St.finish
      rw [if_pos rfl, if_pos (by decide)]
      dsimp only [St.decode]
      have k1 := same_error { s with err := [], pfx := "" } "Invalid argument." true
      have k2 := k1.trans (same_error _ "PhreeqcRM::SetFilePrefix" true)
      rw [screen_error, screen_error, screen_error, k2.2.2.2.2.1, k2.2.2.2.2.2, k1.2.2.2.2.1, k1.2.2.2.2.2]
      unfold toScreen refusal
      generalize errorLine "Invalid argument." true = x1
      generalize errorLine "PhreeqcRM::SetFilePrefix" true = x2
      generalize errorLine "\n" false = x3
      cases hs : s.screenOn <;> cases hr : s.errorOn <;> simp
    · simp [St.setPrefix, hp, St.finish, IRM.toInt, toScreen]
  | close => simp [St.call, toScreen, St.closeFiles]
  | setScreenOn b => simp [St.call, toScreen]
  | setErrorOn b => simp [St.call, toScreen]
  | outputMessage t => simpa [toScreen, St.call] using screen_out s t
  | logMessage t => simpa [toScreen, St.call] using screen_log s t
  | screenMessage t => exact screen_screen s t
  | warningMessage t => exact screen_warning s t
  | errorMessage t p => exact screen_error s t p

/-! ## Concrete cases -/

namespace Demo

/-- A session: a log before opening, then one message of each kind, and the screen switched off. -/
def pre : List Call := [.logMessage "lost", .setPrefix "run1", .setScreenOn false]
def post : List Call := [.logMessage "a", .outputMessage "b", .warningMessage "w", .errorMessage "e" true]

theorem last : LastPrefix pre "run1" :=
  Or.inl ⟨[.logMessage "lost"], [.setScreenOn false], rfl, fun x => by simp⟩

/-- The hypotheses of `files_hold` are met; the warning is in the output file although the documentation
(`PhreeqcRM.h:5614-5630`) names only the screen and the log file. -/
theorem warning_in_output :
    (run (fun _ => true) (new fun _ => none) (pre ++ .open :: post)).fs ("run1" ++ ".chem.txt")
      = some ["b", "w\n", "ERROR: e\n"] := by
  rw [(files_hold (fun _ => true) (fun _ => none) pre post "run1" last rfl rfl (by
    intro c hc; simp [post] at hc; rcases hc with rfl | rfl | rfl | rfl <;> simp [Call.Plain])).2.2.1]
  decide

/-- With the screen switched off and errors on, an error is not shown: `screen_shows` applies. -/
theorem error_needs_screen :
    (run (fun _ => true) (new fun _ => none) (pre ++ [.errorMessage "e" true])).screen
      = (run (fun _ => true) (new fun _ => none) pre).screen := by
  have := screen_shows (fun _ => true) (fun _ => none) pre (.errorMessage "e" true) false true
    (Or.inl ⟨[.logMessage "lost", .setPrefix "run1"], [], rfl, fun x => by simp⟩)
    (Or.inr ⟨rfl, fun x => by simp [pre]⟩) (by simp)
  simpa [toScreen] using this

/-- A message after `CloseFiles` is not stored although the file exists. -/
theorem closed : (run (fun _ => true) (new fun _ => none) ((pre ++ .open :: post) ++ .close ::
    [.logMessage "late"])).fs ("run1" ++ ".log.txt") = some ["a", "w\n", "ERROR: e\n"] := by
  rw [(closed_silent _ _ _ _ (by intro c hc; simp at hc; subst hc; simp)).1,
    (files_hold (fun _ => true) (fun _ => none) pre post "run1" last rfl rfl (by
    intro c hc; simp [post] at hc; rcases hc with rfl | rfl | rfl | rfl <;> simp [Call.Plain])).2.1]
  decide

/-- A directory that cannot be written to meets the hypotheses of `open_refused_partial`. -/
theorem refused_applies :
    ((run (fun _ => false) (new fun _ => none) pre).call (fun _ => false) .open).2 = .fail :=
  (open_refused_partial (fun _ => false) (fun _ => none) pre post "run1" last rfl (by
    intro c hc; simp [post] at hc; rcases hc with rfl | rfl | rfl | rfl <;> simp)).1

/-- A directory where only the log file can be written meets the hypotheses of `half_open`. -/
theorem half_open_applies : ((new fun _ => none).call (fun n => n == "myrun.log.txt") .open).2 = .fail :=
  (half_open (fun n => n == "myrun.log.txt") (new fun _ => none) [] (by decide) (by decide) (by simp)).1

end Demo

end Verif.Files
