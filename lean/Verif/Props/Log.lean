import Verif.Spec.Log

/-!
# C122: log files
-/
namespace Verif.Log
open Verif

@[simp] theorem put_dir (fs : Fs) (p : Path) (s : List Char) : (fs.put p s).dir = fs.dir := rfl
@[simp] theorem put_denied (fs : Fs) (p : Path) (s : List Char) :
    (fs.put p s).denied = fs.denied := rfl
theorem put_file (fs : Fs) (p q : Path) (s : List Char) :
    (fs.put p s).file q = if q = p then some s else fs.file q := rfl
@[simp] theorem put_file_self (fs : Fs) (p : Path) (s : List Char) :
    (fs.put p s).file p = some s := by simp [put_file]
@[simp] theorem openable_put (fs : Fs) (p q : Path) (s : List Char) :
    openable (fs.put p s) q = openable fs q := rfl

theorem put_same (fs : Fs) (p : Path) (c : List Char) (h : fs.file p = some c) :
    fs.put p c = fs := by
  cases fs
  simp only [Fs.put, Fs.mk.injEq, true_and, and_true]
  funext q
  by_cases hq : q = p
  · subst hq; simpa using h.symm
  · simp [hq]

theorem openApp_ready (fs : Fs) (p : Path) (c : List Char) (ho : openable fs p = true)
    (h : fs.file p = some c) : openApp fs p = (fs, .app p) := by
  simp [openApp, ho, h, put_same]

/-! ### Folders -/

theorem createDirectories_cons (c : String) (parent : Path) (fs : Fs) :
    createDirectories (c :: parent) fs =
      if fs.dir (c :: parent) then (.ok (), fs)
      else if parent = [] ∨ fs.dir parent ∨ (fs.file parent).isSome then mkdir (c :: parent) fs
      else (createDirectories parent >>= fun _ => mkdir (c :: parent)) fs := rfl

theorem createDirectory_eq (p : Path) (fs : Fs) :
    createDirectory p fs =
      if isDirectory fs p then (.ok (), fs)
      else (createDirectories p >>= fun _ => M.get >>= fun fs' =>
        if isDirectory fs' p then pure () else M.throw .runtimeError) fs := rfl

theorem mkdir_eq (fs : Fs) (c : String) (parent : Path)
    (hd : fs.denied (c :: parent) = false) (hf : fs.file (c :: parent) = none)
    (hp : parent = [] ∨ fs.dir parent = true) :
    mkdir (c :: parent) fs =
      (.ok (), { fs with dir := fun q => if q = c :: parent then true else fs.dir q }) := by
  have hr : folderReady fs (c :: parent) = true := by
    rcases hp with hp | hp <;> simp [folderReady, hp]
  simp [mkdir, hd, hf, hr]

theorem mkdir_cases (fs : Fs) (p : Path) :
    mkdir p fs = (.throws .runtimeError, fs) ∨
    (mkdir p fs = (.ok (), { fs with dir := fun q => if q = p then true else fs.dir q }) ∧
      fs.denied p = false ∧ fs.file p = none ∧ folderReady fs p = true) := by
  unfold mkdir
  split
  · exact .inl rfl
  · rename_i h
    simp only [Bool.or_eq_true, Bool.not_eq_true', not_or, Bool.not_eq_true,
      Bool.not_eq_false, Option.isSome_eq_false_iff, Option.isNone_iff_eq_none] at h
    exact .inr ⟨rfl, h.1.1, h.1.2, h.2⟩

/-- The folders after `p` and all above it have been made. -/
def withFolders (fs : Fs) (p : Path) : Fs :=
  { fs with dir := fun q => fs.dir q || (q != [] && q.isSuffixOf p) }

theorem suffix_cons (c : String) (parent q : Path) :
    (q.isSuffixOf (c :: parent)) = (q.isSuffixOf parent || q == c :: parent) := by
  rw [Bool.eq_iff_iff]
  simp only [List.isSuffixOf_iff_suffix, Bool.or_eq_true, beq_iff_eq]
  rw [List.suffix_cons_iff]
  constructor <;> rintro (h | h) <;> simp [h]

/-- The file system is a tree as far as its folders are concerned: no file is a folder, and a folder
is in a folder. -/
def Sound (fs : Fs) : Prop :=
  (∀ p, fs.dir p = true → fs.file p = none) ∧
  ∀ c d parent, fs.dir (c :: d :: parent) = true → fs.dir (d :: parent) = true

theorem sound_suffix {fs : Fs} (hs : Sound fs) : ∀ p q : Path, fs.dir p = true → q ≠ [] →
    q <:+ p → fs.dir q = true := by
  intro p
  induction p with
  | nil => intro q _ hq h; exact absurd (List.suffix_nil.1 h) hq
  | cons c parent ih =>
    intro q hd hq h
    rcases List.suffix_cons_iff.1 h with rfl | h
    · exact hd
    · cases parent with
      | nil => exact absurd (List.suffix_nil.1 h) hq
      | cons d parent => exact ih q (hs.2 _ _ _ hd) hq h

theorem withFolders_eq {fs : Fs} (hs : Sound fs) (p : Path) (h : fs.dir p = true) :
    withFolders fs p = fs := by
  cases fs
  rename_i dir file denied
  simp only [withFolders, Fs.mk.injEq, and_self, and_true]
  funext q
  by_cases hq : q ≠ [] ∧ q <:+ p
  · have := sound_suffix hs p q h hq.1 hq.2
    simp only at this
    rw [this]; simp
  · have : (q != [] && q.isSuffixOf p) = false := by
      rw [Bool.eq_false_iff]
      simpa using hq
    simp [this]

/-- `create_directories` makes a folder and all the missing folders above it when it can, and throws
when it cannot. -/
theorem createDirectories_spec {fs : Fs} (hs : Sound fs) : ∀ p : Path,
    (Creatable fs p → createDirectories p fs = (.ok (), withFolders fs p)) ∧
    (¬ Creatable fs p → (createDirectories p fs).1 = .throws .runtimeError) := by
  intro p
  induction p with
  | nil => exact ⟨fun h => (by cases h), fun _ => rfl⟩
  | cons c parent ih =>
    rw [createDirectories_cons]
    by_cases hd : fs.dir (c :: parent) = true
    · simp only [hd, if_true]
      exact ⟨fun _ => by rw [withFolders_eq hs _ hd], fun h => absurd (.present _ _ hd) h⟩
    · rw [if_neg hd]
      by_cases h0 : parent = [] ∨ fs.dir parent = true
      · rw [if_pos (by rcases h0 with h | h <;> simp [h])]
        constructor
        · intro h
          have hdf : fs.denied (c :: parent) = false ∧ fs.file (c :: parent) = none := by
            cases h with
            | present _ _ h => exact absurd h hd
            | top _ h1 h2 => exact ⟨h1, h2⟩
            | inside _ _ _ h1 h2 => exact ⟨h1, h2⟩
          rw [mkdir_eq fs c parent hdf.1 hdf.2 h0]
          simp only [withFolders, Prod.mk.injEq, Fs.mk.injEq, and_self, and_true, true_and]
          funext q
          rw [suffix_cons]
          by_cases hq : q = c :: parent
          · simp [hq]
          · have hq' : (q == c :: parent) = false := by simpa using hq
            rw [if_neg hq, hq', Bool.or_false]
            rcases h0 with rfl | h0
            · have : (q != [] && q.isSuffixOf []) = false := by
                rw [Bool.eq_false_iff]; simp
              simp [this]
            · exact (congrFun (congrArg Fs.dir (withFolders_eq hs parent h0)) q).symm
        · intro h
          rcases mkdir_cases fs (c :: parent) with hm | ⟨_, h1, h2, _⟩
          · rw [hm]
          · exfalso
            apply h
            rcases h0 with rfl | h0
            · exact .top _ h1 h2
            · cases parent with
              | nil => exact .top _ h1 h2
              | cons d parent => exact .inside _ _ (.present _ _ h0) h1 h2
      · rw [not_or] at h0
        by_cases hf : (fs.file parent).isSome
        · rw [if_pos (by simp [hf])]
          have hnot : ¬ Creatable fs parent := by
            intro h
            have hf' : fs.file parent ≠ none := by
              intro h'; rw [h'] at hf; cases hf
            cases h with
            | present _ _ h => exact h0.2 h
            | top _ _ h2 => exact hf' h2
            | inside _ _ _ _ h2 => exact hf' h2
          constructor
          · intro h
            cases h with
            | present _ _ h => exact absurd h hd
            | top => exact absurd rfl h0.1
            | inside _ _ h => exact absurd h hnot
          · intro _
            have : folderReady fs (c :: parent) = false := by
              simp [folderReady, h0.1, h0.2]
            simp [mkdir, this]
        · rw [if_neg (by simp [h0.1, h0.2, hf])]
          rw [M.bind_apply]
          by_cases hc : Creatable fs parent
          · rw [ih.1 hc]
            simp only
            constructor
            · intro h
              have hdf : fs.denied (c :: parent) = false ∧ fs.file (c :: parent) = none := by
                cases h with
                | present _ _ h => exact absurd h hd
                | top _ h1 h2 => exact ⟨h1, h2⟩
                | inside _ _ _ h1 h2 => exact ⟨h1, h2⟩
              rw [mkdir_eq (withFolders fs parent) c parent hdf.1 hdf.2 (.inr ?_)]
              · simp only [withFolders, Prod.mk.injEq, Fs.mk.injEq, and_self, and_true, true_and]
                funext q
                rw [suffix_cons]
                by_cases hq : q = c :: parent
                · simp [hq]
                · have hq' : (q == c :: parent) = false := by simpa using hq
                  rw [if_neg hq, hq', Bool.or_false]
              · simp [withFolders, h0.1]
            · intro h
              rcases mkdir_cases (withFolders fs parent) (c :: parent) with hm | ⟨_, h1, h2, _⟩
              · rw [hm]
              · exact absurd (.inside _ _ hc h1 h2) h
          · have := ih.2 hc
            revert this
            generalize createDirectories parent fs = r
            obtain ⟨a, b⟩ := r
            rintro rfl
            simp only
            refine ⟨fun h => ?_, fun _ => trivial⟩
            cases h with
            | present _ _ h => exact absurd h hd
            | top => exact absurd rfl h0.1
            | inside _ _ h => exact absurd h hc

/-- Making folders changes no file, makes no folder of a file, and removes nothing. -/
theorem createDirectories_keeps : ∀ (p : Path) (fs : Fs),
    (createDirectories p fs).2.file = fs.file ∧ (createDirectories p fs).2.denied = fs.denied ∧
    (∀ q, fs.dir q = true → (createDirectories p fs).2.dir q = true) ∧
    ∀ q, (fs.file q).isSome → (createDirectories p fs).2.dir q = fs.dir q := by
  have hmk : ∀ (fs : Fs) (p : Path), (mkdir p fs).2.file = fs.file ∧
      (mkdir p fs).2.denied = fs.denied ∧
      (∀ q, fs.dir q = true → (mkdir p fs).2.dir q = true) ∧
      ∀ q, (fs.file q).isSome → (mkdir p fs).2.dir q = fs.dir q := by
    intro fs p
    rcases mkdir_cases fs p with h | ⟨h, _, hf, _⟩
    · rw [h]; exact ⟨rfl, rfl, fun _ h => h, fun _ _ => rfl⟩
    · rw [h]
      refine ⟨rfl, rfl, fun q hq => ?_, fun q hq => ?_⟩
      · simp [hq]
      · have : q ≠ p := by rintro rfl; rw [hf] at hq; cases hq
        simp [this]
  intro p
  induction p with
  | nil => intro fs; exact ⟨rfl, rfl, fun _ h => h, fun _ _ => rfl⟩
  | cons c parent ih =>
    intro fs
    rw [createDirectories_cons]
    split
    · exact ⟨rfl, rfl, fun _ h => h, fun _ _ => rfl⟩
    · split
      · exact hmk fs _
      · rw [M.bind_apply]
        have h1 := ih fs
        generalize createDirectories parent fs = r at h1
        obtain ⟨a, fs1⟩ := r
        cases a with
        | ok u =>
          simp only at h1 ⊢
          obtain ⟨hf, hd, hm, hk⟩ := h1
          obtain ⟨hf', hd', hm', hk'⟩ := hmk fs1 (c :: parent)
          refine ⟨hf'.trans hf, hd'.trans hd, fun q hq => hm' q (hm q hq), fun q hq => ?_⟩
          rw [hk' q (by rw [hf]; exact hq), hk q hq]
        | throws e => exact h1
        | abort => exact h1
        | ub => exact h1

theorem createDirectory_keeps (p : Path) (fs : Fs) :
    (createDirectory p fs).2.file = fs.file ∧ (createDirectory p fs).2.denied = fs.denied ∧
    (∀ q, fs.dir q = true → (createDirectory p fs).2.dir q = true) ∧
    ∀ q, (fs.file q).isSome → (createDirectory p fs).2.dir q = fs.dir q := by
  rw [createDirectory_eq]
  split
  · exact ⟨rfl, rfl, fun _ h => h, fun _ _ => rfl⟩
  · rw [M.bind_apply]
    have h1 := createDirectories_keeps p fs
    generalize createDirectories p fs = r at h1
    obtain ⟨a, fs1⟩ := r
    cases a with
    | ok u =>
      simp only [M.bind_get] at h1 ⊢
      split <;> exact h1
    | throws e => exact h1
    | abort => exact h1
    | ub => exact h1

theorem createDirectory_ok (p : Path) (fs : Fs) (u : Unit) (fs' : Fs)
    (h : createDirectory p fs = (.ok u, fs')) : isDirectory fs' p = true := by
  rw [createDirectory_eq] at h
  split at h
  · cases h; assumption
  · rw [M.bind_apply] at h
    split at h
    · rw [M.bind_get] at h
      split at h
      · cases h; assumption
      · cases h
    all_goals cases h

theorem createDirectory_throws (p : Path) (fs : Fs) :
    (∃ u fs', createDirectory p fs = (.ok u, fs')) ∨
    ∃ fs', createDirectory p fs = (.throws .runtimeError, fs') := by
  have hmk : ∀ (fs : Fs) (p : Path), (∃ u fs', mkdir p fs = (.ok u, fs')) ∨
      ∃ fs', mkdir p fs = (.throws .runtimeError, fs') := by
    intro fs p
    rcases mkdir_cases fs p with h | ⟨h, _⟩
    · exact .inr ⟨_, h⟩
    · exact .inl ⟨_, _, h⟩
  have hcd : ∀ (p : Path) (fs : Fs), (∃ u fs', createDirectories p fs = (.ok u, fs')) ∨
      ∃ fs', createDirectories p fs = (.throws .runtimeError, fs') := by
    intro p
    induction p with
    | nil => intro fs; exact .inr ⟨fs, rfl⟩
    | cons c parent ih =>
      intro fs
      rw [createDirectories_cons]
      split
      · exact .inl ⟨_, _, rfl⟩
      · split
        · exact hmk _ _
        · rw [M.bind_apply]
          rcases ih fs with ⟨u, fs1, h⟩ | ⟨fs1, h⟩
          · rw [h]; exact hmk _ _
          · rw [h]; exact .inr ⟨_, rfl⟩
  rw [createDirectory_eq]
  split
  · exact .inl ⟨_, _, rfl⟩
  · rw [M.bind_apply]
    rcases hcd p fs with ⟨u, fs1, h⟩ | ⟨fs1, h⟩
    · rw [h]
      simp only [M.bind_get]
      split
      · exact .inl ⟨_, _, rfl⟩
      · exact .inr ⟨_, rfl⟩
    · rw [h]; exact .inr ⟨_, rfl⟩

/-! ### The constructor -/

/-- What the file of a new logger holds: the header when one is wanted. -/
theorem construct_open (p : Path) (header : Option String) (fs fs1 : Fs) (u : Unit)
    (h : createDirectory p.tail fs = (.ok u, fs1)) :
    construct p header fs = if openable fs1 p
      then (.ok ⟨p, .at p (text header.toList).length⟩, fs1.put p (text header.toList))
      else (.throws .invalidArgument, fs1) := by
  unfold construct
  rw [M.bind_apply, h]
  simp only [openNew, openTrunc]
  by_cases ho : openable fs1 p = true
  · simp only [ho, if_true]
    cases header with
    | none => simp [text]
    | some s =>
      simp [text, Stream.line, splice, Fs.put]
      funext q
      by_cases hq : q = p <;> simp [hq]
  · simp only [ho]
    rfl

/-- C122, opening: a logger is constructed exactly when its folder exists or can be made, with every
missing folder above it, and the file can be opened for writing. The file then holds the header
alone, its old contents are gone, no other file changes, and only the folder and those above it are
made. When the folder cannot be made the constructor throws a runtime error, and when the file cannot
be opened an invalid argument error. -/
theorem C122_open (fs : Fs) (hs : Sound fs) (p : Path) (header : Option String) :
    (Creatable fs p.tail → openable (withFolders fs p.tail) p = true →
      construct p header fs = (.ok ⟨p, .at p (text header.toList).length⟩,
        (withFolders fs p.tail).put p (text header.toList))) ∧
    (Creatable fs p.tail → openable (withFolders fs p.tail) p = false →
      construct p header fs = (.throws .invalidArgument, withFolders fs p.tail)) ∧
    (¬ Creatable fs p.tail → (construct p header fs).1 = .throws .runtimeError ∧
      (construct p header fs).2.file = fs.file) := by
  have hcd : Creatable fs p.tail →
      createDirectory p.tail fs = (.ok (), withFolders fs p.tail) := by
    intro h
    have hne : p.tail ≠ [] := by intro h'; rw [h'] at h; cases h
    rw [createDirectory_eq]
    split
    · rename_i h1
      rw [withFolders_eq hs]
      simp only [isDirectory, Bool.and_eq_true] at h1
      exact h1.2
    · rw [M.bind_apply, (createDirectories_spec hs p.tail).1 h]
      simp only [M.bind_get]
      rw [if_pos]
      · rfl
      · simp [isDirectory, withFolders, hne]
  refine ⟨fun h ho => ?_, fun h ho => ?_, fun h => ?_⟩
  · rw [construct_open p header fs _ () (hcd h), if_pos ho]
  · rw [construct_open p header fs _ () (hcd h), if_neg (by simp [ho])]
  · have hth : ∃ fs', createDirectory p.tail fs = (.throws .runtimeError, fs') := by
      rw [createDirectory_eq]
      have hd : isDirectory fs p.tail = false := by
        rw [Bool.eq_false_iff]
        intro h1
        apply h
        simp only [isDirectory, Bool.and_eq_true, bne_iff_ne, ne_eq] at h1
        revert h1
        cases p.tail with
        | nil => intro h1; exact absurd rfl h1.1
        | cons c parent => intro h1; exact .present _ _ h1.2
      rw [hd]
      simp only [Bool.false_eq_true, if_false]
      rw [M.bind_apply]
      have := (createDirectories_spec hs p.tail).2 h
      revert this
      generalize createDirectories p.tail fs = r
      obtain ⟨a, b⟩ := r
      rintro rfl
      exact ⟨b, rfl⟩
    obtain ⟨fs', hth⟩ := hth
    have hk := createDirectory_keeps p.tail fs
    rw [hth] at hk
    unfold construct
    rw [M.bind_apply, hth]
    exact ⟨rfl, hk.1⟩

/-- C122, a bare file name: a logger for a file in the working directory, named without a folder,
cannot be constructed. -/
theorem C122_bare (fs : Fs) (name : String) (header : Option String) :
    construct [name] header fs = (.throws .runtimeError, fs) := rfl

/-- A file system with a folder `/tmp`: `/tmp/run/a.txt` can be logged to, and the folder is made. -/
example : ∃ fs : Fs, Sound fs ∧ Creatable fs ["run", "tmp", "/"] ∧
    openable (withFolders fs ["run", "tmp", "/"]) ["a.txt", "run", "tmp", "/"] = true ∧
    fs.dir ["run", "tmp", "/"] = false := by
  refine ⟨⟨fun q => q == ["tmp", "/"] || q == ["/"], fun _ => none, fun _ => false⟩, ?_, ?_, ?_, ?_⟩
  · refine ⟨fun _ _ => rfl, fun c d parent h => ?_⟩
    simp at h ⊢
    exact .inr h.2
  · exact .inside _ _ (.present _ _ (by simp)) rfl rfl
  · simp [openable, withFolders, folderReady, List.isSuffixOf_iff_suffix]
    decide
  · simp

/-! ### Histories -/

/-- The stream of a logger, by what it is to its file. -/
def Writes (fs : Fs) (p : Path) (st : Stream) : Status → Prop
  | .original => st = .at p ((fs.file p).getD []).length
  | .copied => ∃ pos, st = .at p pos
  | .attached => st = .app p
  | .detached => st = .closed

/-- A logger and what it is to its file. -/
def Matches (fs : Fs) : Option Obj → Option (Path × Status) → Prop
  | none, none => True
  | some o, some (p, s) => o.filename = p ∧ Writes fs p o.stream s
  | _, _ => False

/-- The model's state shows the specification's state. -/
structure Shows (fs0 : Fs) (w : World) (r : Ref) : Prop where
  loggers : ∀ i, Matches w.fs (w.objs i) (r.loggers i)
  alone : ∀ i j p s, r.loggers i = some (p, .original) → r.loggers j = some (p, s) → i = j
  named : ∀ i p s, r.loggers i = some (p, s) → ∃ ls, r.lines p = some ls
  lines : ∀ p ls, r.lines p = some ls → w.fs.file p = some (text ls) ∧ openable w.fs p = true
  others : ∀ p, r.lines p = none → w.fs.file p = fs0.file p

theorem matches_some {fs : Fs} {o : Option Obj} {p : Path} {s : Status}
    (h : Matches fs o (some (p, s))) : ∃ st, o = some ⟨p, st⟩ ∧ Writes fs p st s := by
  match o, h with
  | some o, h =>
    obtain ⟨h1, h2⟩ := h
    refine ⟨o.stream, ?_, h2⟩
    rw [← h1]

theorem matches_none {fs : Fs} {o : Option Obj} (h : Matches fs o none) : o = none := by
  match o, h with
  | none, _ => rfl

/-- Only the length of a file matters to a logger. -/
theorem matches_congr {fs fs' : Fs} {o : Option Obj} {l : Option (Path × Status)}
    (h : Matches fs o l) (hf : ∀ p, l = some (p, .original) → fs'.file p = fs.file p) :
    Matches fs' o l := by
  match o, l, h with
  | none, none, _ => trivial
  | some o, some (p, s), ⟨h1, h2⟩ =>
    refine ⟨h1, ?_⟩
    cases s with
    | original => unfold Writes; rw [hf p rfl]; exact h2
    | copied => exact h2
    | attached => exact h2
    | detached => exact h2

theorem text_append (a b : List String) : text (a ++ b) = text a ++ text b := by
  simp [text, List.flatMap_append]
theorem text_single (s : String) : text [s] = s.toList ++ ['\n'] := by simp [text]

/-- Opening to append a file that is a log changes nothing on disk. -/
theorem Shows.reopen {fs0 : Fs} {w : World} {r : Ref} (h : Shows fs0 w r) {i : Nat} {p : Path}
    {s : Status} (hi : r.loggers i = some (p, s)) : openApp w.fs p = (w.fs, .app p) := by
  obtain ⟨ls, hls⟩ := h.named i p s hi
  obtain ⟨hf, ho⟩ := h.lines p ls hls
  exact openApp_ready _ _ _ ho hf

/-- A step that attaches logger `t` to the file of logger `i`, and leaves `i` as `after`. -/
theorem Shows.attach {fs0 : Fs} {w : World} {r : Ref} (h : Shows fs0 w r) {i t : Nat} {p : Path}
    {s : Status} (hi : r.loggers i = some (p, s)) {q : Path} {after : Status} {o : Obj}
    (hq : ∃ k s', (k = i ∨ k = t) ∧ r.loggers k = some (q, s')) (ho : Matches w.fs (some o) (some (q, after)))
    (hafter : after ≠ .original) :
    Shows fs0 ⟨w.fs, setAt (setAt w.objs i (some o)) t (some ⟨p, .app p⟩)⟩
      ((r.put i (some (q, after))).put t (some (p, .attached))) := by
  obtain ⟨ls, hls⟩ := h.named i p s hi
  have hno : ∀ (n : Nat) (p' : Path), ((r.put i (some (q, after))).put t
      (some (p, .attached))).loggers n = some (p', .original) →
      n ≠ i ∧ n ≠ t ∧ r.loggers n = some (p', .original) := by
    intro n p' hn
    simp only [Ref.put] at hn
    by_cases ht : n = t
    · simp [ht] at hn
    · by_cases h' : n = i
      · simp [← h', ht] at hn
        exact absurd hn.2 hafter
      · simp [ht, h'] at hn
        exact ⟨h', ht, hn⟩
  refine ⟨fun n => ?_, ?_, ?_, h.lines, h.others⟩
  · simp only [Ref.put, setAt]
    by_cases ht : n = t
    · simp only [ht, if_true]; exact ⟨rfl, rfl⟩
    · by_cases h' : n = i
      · rw [if_neg ht, if_pos h', if_neg ht, if_pos h']
        exact ho
      · simp only [ht, h', if_false]; exact h.loggers n
  · intro n m p' s' hn hm
    obtain ⟨hni, hnt, hn'⟩ := hno n p' hn
    simp only [Ref.put] at hm
    by_cases ht : m = t
    · simp only [ht, if_true, Option.some.injEq, Prod.mk.injEq] at hm
      obtain ⟨rfl, _⟩ := hm
      exact absurd (h.alone n i _ s hn' hi) hni
    · by_cases h' : m = i
      · subst h'
        simp only [ht, if_false, if_true, Option.some.injEq, Prod.mk.injEq] at hm
        obtain ⟨rfl, _⟩ := hm
        obtain ⟨k, s'', hk, hkq⟩ := hq
        have := h.alone n k _ s'' hn' hkq
        rcases hk with rfl | rfl
        · exact this
        · exact absurd this hnt
      · simp only [ht, h', if_false] at hm
        exact h.alone n m p' s' hn' hm
  · intro n p' s' hn
    simp only [Ref.put] at hn
    by_cases ht : n = t
    · simp only [ht, if_true, Option.some.injEq, Prod.mk.injEq] at hn
      exact ⟨ls, hn.1 ▸ hls⟩
    · by_cases h' : n = i
      · simp [← h', ht] at hn
        obtain ⟨k, s'', _, hkq⟩ := hq
        exact hn.1 ▸ h.named k q s'' hkq
      · simp only [ht, h', if_false] at hn
        exact h.named n p' s' hn

/-- Putting back what is there changes nothing. -/
theorem setAt_self {α : Type} (f : Nat → α) (i : Nat) (a : α) (h : f i = a) : setAt f i a = f := by
  funext j
  by_cases hj : j = i
  · subst hj; simp [setAt, h]
  · simp [setAt, hj]

/-- A step that writes a line to the file of logger `t`. -/
theorem Shows.write {fs0 : Fs} {w : World} {r : Ref} (h : Shows fs0 w r) {t : Nat} {p : Path}
    {s : Status} (ht : r.loggers t = some (p, s)) (m : String)
    (hs : s ≠ .copied) (hd : s ≠ .detached) :
    ∃ w', step (.log t m) w = (.ok (), w') ∧ Shows fs0 w'
      { r with lines := fun q => if q = p then (r.lines q).map (· ++ [m]) else r.lines q } := by
  obtain ⟨ls, hls⟩ := h.named t p s ht
  obtain ⟨hf, ho⟩ := h.lines p ls hls
  have hm := h.loggers t
  rw [ht] at hm
  obtain ⟨st, hst, hs'⟩ := matches_some hm
  have key : ∃ st', st.line w.fs m = (w.fs.put p (text (ls ++ [m])), st') ∧
      Matches (w.fs.put p (text (ls ++ [m]))) (some ⟨p, st'⟩) (some (p, s)) := by
    cases s with
    | copied => exact absurd rfl hs
    | detached => exact absurd rfl hd
    | original =>
      simp only [Writes, hf, Option.getD_some] at hs'
      subst hs'
      refine ⟨.at p ((text ls).length + (m.toList ++ ['\n']).length), by
        simp only [Stream.line, hf, Option.getD_some, splice, List.take_length, Nat.sub_self,
          List.replicate_zero, List.append_nil, text_append, text_single, List.drop_eq_nil_of_le,
          Nat.le_add_right], rfl, ?_⟩
      simp [Writes, text_append, text_single]
    | attached =>
      simp only [Writes] at hs'
      subst hs'
      exact ⟨_, by simp only [Stream.line, hf, Option.getD_some, text_append, text_single],
        rfl, rfl⟩
  obtain ⟨st', hl, hmt⟩ := key
  refine ⟨_, by simp only [step, hst]; rfl, ?_⟩
  simp only [hl]
  refine ⟨fun n => ?_, h.alone, ?_, ?_, ?_⟩
  · simp only [setAt]
    by_cases hn : n = t
    · subst hn
      simp only [if_true, ht]
      exact hmt
    · simp only [hn, if_false]
      refine matches_congr (h.loggers n) fun q hq => ?_
      rw [put_file]
      have : q ≠ p := by
        rintro rfl
        exact hn (h.alone n t q s hq ht)
      simp [this]
  · intro n q s' hn
    obtain ⟨ls', h'⟩ := h.named n q s' hn
    by_cases hq : q = p
    · exact ⟨ls' ++ [m], by simp [hq, ← h']⟩
    · exact ⟨ls', by simpa [hq] using h'⟩
  · intro q ls' hq
    simp only at hq
    by_cases hqp : q = p
    · subst hqp
      simp only [if_true, hls, Option.map_some, Option.some.injEq] at hq
      subst hq
      exact ⟨by simp, ho⟩
    · simp only [hqp, if_false] at hq
      rw [put_file, if_neg hqp]
      exact h.lines q ls' hq
  · intro q hq
    simp only at hq
    by_cases hqp : q = p
    · subst hqp; simp [hls] at hq
    · simp only [hqp, if_false] at hq
      rw [put_file, if_neg hqp]
      exact h.others q hq

/-- Every allowed operation does what it should, or it is a construction that throws, and then it
changes no log file. -/
theorem step_shows {fs0 : Fs} {w : World} {r : Ref} (h : Shows fs0 w r) (op : Op)
    (ha : r.allows op) :
    (∃ w', step op w = (.ok (), w') ∧ Shows fs0 w' (r.next op)) ∨
    (∃ n p header e w', op = .create n p header ∧ step op w = (.throws e, w') ∧
      (e = .runtimeError ∨ e = .invalidArgument) ∧ Shows fs0 w' r) := by
  cases op with
  | create n p header =>
    obtain ⟨hn, hp⟩ := ha
    have hnone : w.objs n = none := matches_none (hn ▸ h.loggers n)
    obtain ⟨hkf, hkd, hkm, hkk⟩ := createDirectory_keeps p.tail w.fs
    have hopen : ∀ fs1, (createDirectory p.tail w.fs).2 = fs1 → ∀ q, (w.fs.file q).isSome →
        openable w.fs q = true → openable fs1 q = true := by
      rintro fs1 rfl q hq ho
      simp only [openable, folderReady, Bool.and_eq_true, Bool.not_eq_true', Bool.or_eq_true,
        hkk q hq, hkd] at ho ⊢
      refine ⟨ho.1, ho.2.imp id fun h => hkm _ h⟩
    have hkeep : ∀ fs1, (createDirectory p.tail w.fs).2 = fs1 → Shows fs0 ⟨fs1, w.objs⟩ r := by
      rintro fs1 hfs
      have hfile : fs1.file = w.fs.file := hfs ▸ hkf
      refine ⟨fun i => matches_congr (h.loggers i) fun q _ => by rw [hfile], h.alone, h.named,
        fun q ls hq => ?_, fun q hq => ?_⟩
      · obtain ⟨h1, h2⟩ := h.lines q ls hq
        exact ⟨by rw [hfile]; exact h1, hopen fs1 hfs q (by rw [h1]; rfl) h2⟩
      · exact (congrFun hfile q).trans (h.others q hq)
    rcases createDirectory_throws p.tail w.fs with ⟨u, fs1, hcd⟩ | ⟨fs1, hcd⟩
    · have hc := construct_open p header w.fs fs1 u hcd
      have hsh := hkeep fs1 (by rw [hcd])
      by_cases ho : openable fs1 p = true
      · left
        rw [if_pos ho] at hc
        refine ⟨_, by simp only [step, hnone, hc]; rfl, ?_⟩
        refine ⟨fun i => ?_, ?_, ?_, ?_, ?_⟩
        · simp only [setAt, Ref.next, Ref.put]
          by_cases hi : i = n
          · simp only [hi, if_true]
            exact ⟨rfl, by simp [Writes]⟩
          · simp only [hi, if_false]
            refine matches_congr (hsh.loggers i) fun q hq => ?_
            rw [put_file, if_neg (hp i q _ hq)]
        · intro i j q s hi hj
          simp only [Ref.next, Ref.put] at hi hj
          by_cases hin : i = n
          · by_cases hjn : j = n
            · rw [hin, hjn]
            · simp only [hin, if_true, Option.some.injEq, Prod.mk.injEq, and_true] at hi
              simp only [hjn, if_false] at hj
              exact absurd hi.symm (hp j q s hj)
          · simp only [hin, if_false] at hi
            by_cases hjn : j = n
            · simp only [hjn, if_true, Option.some.injEq, Prod.mk.injEq] at hj
              exact absurd hj.1.symm (hp i q _ hi)
            · simp only [hjn, if_false] at hj
              exact h.alone i j q s hi hj
        · intro i q s hi
          simp only [Ref.next, Ref.put] at hi ⊢
          by_cases hin : i = n
          · simp only [hin, if_true, Option.some.injEq, Prod.mk.injEq] at hi
            exact ⟨header.toList, by simp [hi.1]⟩
          · simp only [hin, if_false] at hi
            obtain ⟨ls, hls⟩ := h.named i q s hi
            exact ⟨ls, by simp [hp i q s hi, hls]⟩
        · intro q ls hq
          simp only [Ref.next, Ref.put] at hq
          by_cases hqp : q = p
          · subst hqp
            simp only [if_true, Option.some.injEq] at hq
            subst hq
            exact ⟨by simp, ho⟩
          · simp only [hqp, if_false] at hq
            simp only
            rw [put_file, if_neg hqp]
            exact hsh.lines q ls hq
        · intro q hq
          simp only [Ref.next, Ref.put] at hq
          by_cases hqp : q = p
          · simp [hqp] at hq
          · simp only [hqp, if_false] at hq
            simp only
            rw [put_file, if_neg hqp]
            exact hsh.others q hq
      · right
        rw [if_neg ho] at hc
        exact ⟨n, p, header, _, _, rfl, by simp only [step, hnone, hc], .inr rfl, hsh⟩
    · right
      have hc : construct p header w.fs = (.throws .runtimeError, fs1) := by
        unfold construct
        rw [M.bind_apply, hcd]
      exact ⟨n, p, header, _, _, rfl, by simp only [step, hnone, hc], .inl rfl,
        hkeep fs1 (by rw [hcd])⟩
  | copy n i =>
    left
    obtain ⟨hn, hi⟩ := ha
    have hnone : w.objs n = none := matches_none (hn ▸ h.loggers n)
    obtain ⟨⟨p, s⟩, hi⟩ := Option.ne_none_iff_exists'.1 hi
    obtain ⟨st, hst, hs'⟩ := matches_some (hi ▸ h.loggers i)
    have hre := h.reopen hi
    refine ⟨_, by simp only [step, hnone, hst]; rfl, ?_⟩
    simp only [copyConstruct, hre, Ref.next, hi]
    have hne : i ≠ n := by rintro rfl; rw [hn] at hi; cases hi
    rw [← setAt_self w.objs i _ hst]
    cases s with
    | original =>
      exact h.attach hi ⟨i, _, .inl rfl, hi⟩ ⟨rfl, _, hs'⟩ (by simp [Status.afterCopy])
    | copied =>
      exact h.attach hi ⟨i, _, .inl rfl, hi⟩ ⟨rfl, hs'⟩ (by simp [Status.afterCopy])
    | attached =>
      exact h.attach hi ⟨i, _, .inl rfl, hi⟩ ⟨rfl, hs'⟩ (by simp [Status.afterCopy])
    | detached =>
      exact h.attach hi ⟨i, _, .inl rfl, hi⟩ ⟨rfl, hs'⟩ (by simp [Status.afterCopy])
  | move n i =>
    left
    obtain ⟨hn, hi⟩ := ha
    have hnone : w.objs n = none := matches_none (hn ▸ h.loggers n)
    obtain ⟨⟨p, s⟩, hi⟩ := Option.ne_none_iff_exists'.1 hi
    obtain ⟨st, hst, hs'⟩ := matches_some (hi ▸ h.loggers i)
    have hre := h.reopen hi
    refine ⟨_, by simp only [step, hnone, hst]; rfl, ?_⟩
    simp only [moveConstruct, hre, Ref.next, hi]
    exact h.attach hi ⟨i, _, .inl rfl, hi⟩ ⟨rfl, rfl⟩ (by simp)
  | copyAssign t i =>
    left
    obtain ⟨ht, hi⟩ := ha
    obtain ⟨⟨q, s0⟩, ht⟩ := Option.ne_none_iff_exists'.1 ht
    obtain ⟨⟨p, s⟩, hi⟩ := Option.ne_none_iff_exists'.1 hi
    obtain ⟨st0, hst0, hs0⟩ := matches_some (ht ▸ h.loggers t)
    obtain ⟨st, hst, hs'⟩ := matches_some (hi ▸ h.loggers i)
    have hre := h.reopen hi
    refine ⟨_, by simp only [step, hst0, hst]; rfl, ?_⟩
    simp only [copyAssign, copyConstruct, moveAssign, hre, Ref.next, hi]
    rw [← setAt_self w.objs i _ hst]
    cases s with
    | original =>
      exact h.attach hi ⟨i, _, .inl rfl, hi⟩ ⟨rfl, _, hs'⟩ (by simp [Status.afterCopy])
    | copied =>
      exact h.attach hi ⟨i, _, .inl rfl, hi⟩ ⟨rfl, hs'⟩ (by simp [Status.afterCopy])
    | attached =>
      exact h.attach hi ⟨i, _, .inl rfl, hi⟩ ⟨rfl, hs'⟩ (by simp [Status.afterCopy])
    | detached =>
      exact h.attach hi ⟨i, _, .inl rfl, hi⟩ ⟨rfl, hs'⟩ (by simp [Status.afterCopy])
  | moveAssign t i =>
    left
    obtain ⟨ht, hi⟩ := ha
    obtain ⟨⟨q, s0⟩, ht⟩ := Option.ne_none_iff_exists'.1 ht
    obtain ⟨⟨p, s⟩, hi⟩ := Option.ne_none_iff_exists'.1 hi
    obtain ⟨st0, hst0, hs0⟩ := matches_some (ht ▸ h.loggers t)
    obtain ⟨st, hst, hs'⟩ := matches_some (hi ▸ h.loggers i)
    have hre := h.reopen hi
    have hat := h.attach (t := t) hi ⟨t, _, .inr rfl, ht⟩ (o := ⟨q, .closed⟩) (after := .detached)
      ⟨rfl, rfl⟩ (by simp)
    by_cases hti : t = i
    · subst hti
      rw [hst] at hst0
      rw [hi] at ht
      cases ht; cases hst0
      refine ⟨_, by simp only [step, hst, if_true]; rfl, ?_⟩
      simp only [moveAssignSelf, hre, Ref.next, hi]
      have hset : setAt (setAt w.objs t (some ⟨q, .closed⟩)) t (some ⟨q, .app q⟩) =
          setAt w.objs t (some ⟨q, .app q⟩) := by
        funext j
        by_cases hj : j = t <;> simp [setAt, hj]
      rw [hset] at hat
      exact hat
    · refine ⟨_, by simp only [step, hst0, hst, hti, if_false]; rfl, ?_⟩
      simp only [moveAssign, hre, Ref.next, hi, ht]
      exact hat
  | destroy t =>
    left
    obtain ⟨⟨q, s0⟩, ht⟩ := Option.ne_none_iff_exists'.1 ha
    obtain ⟨st0, hst0, hs0⟩ := matches_some (ht ▸ h.loggers t)
    refine ⟨_, by simp only [step, hst0]; rfl, ?_⟩
    have hput : ∀ n p s, (r.next (.destroy t)).loggers n = some (p, s) →
        r.loggers n = some (p, s) := by
      intro n p s hn
      simp only [Ref.next, Ref.put] at hn
      by_cases hnt : n = t
      · simp [hnt] at hn
      · simpa [hnt] using hn
    refine ⟨fun n => ?_, fun i j p s hi hj => h.alone i j p s (hput _ _ _ hi) (hput _ _ _ hj),
      fun n p s hn => h.named n p s (hput _ _ _ hn), h.lines, h.others⟩
    simp only [setAt, Ref.next, Ref.put]
    by_cases hnt : n = t
    · simp only [hnt, if_true]; trivial
    · simp only [hnt, if_false]; exact h.loggers n
  | log t m =>
    left
    obtain ⟨p, s, ht, hs⟩ := ha
    by_cases hd : s = .detached
    · subst hd
      obtain ⟨st0, hst0, hs0⟩ := matches_some (ht ▸ h.loggers t)
      simp only [Writes] at hs0
      subst hs0
      refine ⟨_, by simp only [step, hst0]; rfl, ?_⟩
      simp only [Stream.line, Ref.next, ht]
      rw [setAt_self _ _ _ hst0]
      exact h
    · obtain ⟨w', h1, h2⟩ := h.write ht m hs hd
      refine ⟨w', h1, ?_⟩
      simp only [Ref.next, ht]
      cases s <;> first | exact h2 | exact absurd rfl hd

/-- C122, histories: in every program that writes through no logger it has copied, and opens no file
a living logger is named after, every log file holds exactly the lines logged to it, whole, once, and
in the order of the calls, through whichever logger they went, whatever was copied, moved, assigned
and destroyed. No other file changes. Such a program goes wrong only by a constructor that throws. -/
theorem C122_history_partial (fs : Fs) (ops : List Op) (ha : Ref.start.allowsAll ops) :
    (∃ w, run ops ⟨fs, fun _ => none⟩ = (.ok (), w) ∧
      (∀ p ls, (Ref.start.after ops).lines p = some ls → w.fs.file p = some (text ls)) ∧
      ∀ p, (Ref.start.after ops).lines p = none → w.fs.file p = fs.file p) ∨
    (∃ w0 w n p header before after e, ops = before ++ .create n p header :: after ∧
      run before ⟨fs, fun _ => none⟩ = (.ok (), w0) ∧
      step (.create n p header) w0 = (.throws e, w) ∧
      run ops ⟨fs, fun _ => none⟩ = (.throws e, w) ∧ (e = .runtimeError ∨ e = .invalidArgument) ∧
      (∀ p ls, (Ref.start.after before).lines p = some ls → w.fs.file p = some (text ls)) ∧
      ∀ p, (Ref.start.after before).lines p = none → w.fs.file p = fs.file p) := by
  have gen : ∀ (ops : List Op) (w : World) (r : Ref), Shows fs w r → r.allowsAll ops →
      (∃ w', run ops w = (.ok (), w') ∧ Shows fs w' (r.after ops)) ∨
      (∃ w0 w' n p header before after e, ops = before ++ .create n p header :: after ∧
        run before w = (.ok (), w0) ∧ step (.create n p header) w0 = (.throws e, w') ∧
        run ops w = (.throws e, w') ∧ (e = .runtimeError ∨ e = .invalidArgument) ∧
        Shows fs w' (r.after before)) := by
    intro ops
    induction ops with
    | nil => intro w r h _; exact .inl ⟨w, rfl, h⟩
    | cons op ops ih =>
      intro w r h ha
      rcases step_shows h op ha.1 with ⟨w', hst, hsh⟩ | ⟨n, p, header, e, w', rfl, hst, he, hsh⟩
      · rcases ih w' _ hsh ha.2 with ⟨w2, h2, hs2⟩ | ⟨w0, w2, n, p, hd, b, a, e, ho, hb, hc, h2, he, hs2⟩
        · exact .inl ⟨w2, by rw [run, M.bind_apply, hst]; exact h2, hs2⟩
        · exact .inr ⟨w0, w2, n, p, hd, op :: b, a, e, by rw [ho]; rfl,
            by rw [run, M.bind_apply, hst]; exact hb, hc,
            by rw [run, M.bind_apply, hst]; exact h2, he, hs2⟩
      · exact .inr ⟨w, w', n, p, header, [], ops, e, rfl, rfl, hst,
          by rw [run, M.bind_apply, hst], he, hsh⟩
  have hstart : Shows fs ⟨fs, fun _ => none⟩ Ref.start :=
    ⟨fun _ => trivial, fun i j p s h => (by cases h), fun i p s h => (by cases h),
      fun p ls h => (by cases h), fun _ _ => rfl⟩
  rcases gen ops _ _ hstart ha with ⟨w, h, hs⟩ | ⟨w0, w, n, p, hd, b, a, e, ho, hb, hc, h, he, hs⟩
  · exact .inl ⟨w, h, fun p ls hp => (hs.lines p ls hp).1, hs.others⟩
  · exact .inr ⟨w0, w, n, p, hd, b, a, e, ho, hb, hc, h, he,
      fun p ls hp => (hs.lines p ls hp).1, hs.others⟩

/-- C122, one logger: whatever is logged through one logger, the file holds its header and the
messages in order. -/
theorem C122_one (fs : Fs) (hs : Sound fs) (p : Path) (header : Option String)
    (hc : Creatable fs p.tail) (ho : openable (withFolders fs p.tail) p = true)
    (messages : List String) :
    ∃ w, run (.create 0 p header :: messages.map (.log 0)) ⟨fs, fun _ => none⟩ = (.ok (), w) ∧
      w.fs.file p = some (text (header.toList ++ messages)) := by
  have gen : ∀ (ms ls : List String) (r : Ref), r.loggers 0 = some (p, .original) →
      r.lines p = some ls → r.allowsAll (ms.map (.log 0)) ∧
      (r.after (ms.map (.log 0))).lines p = some (ls ++ ms) := by
    intro ms
    induction ms with
    | nil => intro ls r _ hl; exact ⟨trivial, by simpa [Ref.after] using hl⟩
    | cons m ms ih =>
      intro ls r hr hl
      have hn : r.next (.log 0 m) =
          { r with lines := fun q => if q = p then (r.lines q).map (· ++ [m]) else r.lines q } := by
        simp only [Ref.next, hr]
      obtain ⟨h1, h2⟩ := ih (ls ++ [m]) (r.next (.log 0 m)) (by rw [hn]; exact hr)
        (by rw [hn]; simp [hl])
      refine ⟨⟨⟨p, .original, hr, by simp⟩, h1⟩, ?_⟩
      rw [List.map_cons, Ref.after, h2]
      simp
  obtain ⟨h1, h2⟩ := gen messages header.toList (Ref.start.next (.create 0 p header))
    (by simp [Ref.next, Ref.put]) (by simp [Ref.next, Ref.put])
  have hall : Ref.start.allowsAll (.create 0 p header :: messages.map (.log 0)) :=
    ⟨⟨rfl, fun i q s h => (by cases h)⟩, h1⟩
  rcases C122_history_partial fs _ hall with
    ⟨w, h, hl, _⟩ | ⟨w0, w, n, q, hd, b, a, e, hb, hr, hst, _⟩
  · exact ⟨w, h, hl p _ h2⟩
  · exfalso
    cases b with
    | nil =>
      cases hr
      simp only [List.nil_append, List.cons.injEq, Op.create.injEq] at hb
      obtain ⟨⟨rfl, rfl, rfl⟩, _⟩ := hb
      simp only [step, (C122_open fs hs p header).1 hc ho] at hst
      cases hst
    | cons b0 b =>
      simp only [List.cons_append, List.cons.injEq] at hb
      have : Op.create n q hd ∈ messages.map (.log 0) := by rw [hb.2]; simp
      simp at this

/-- C122, copies: through a logger and a copy of it messages are lost. The logger is constructed and
copied, then the copy and the logger each log a message: the second overwrites the first, which is
gone from the file. -/
theorem C122_copy_loses (fs : Fs) (hs : Sound fs) (p : Path) (hc : Creatable fs p.tail)
    (ho : openable (withFolders fs p.tail) p = true) :
    ∃ w, run [.create 0 p none, .copy 1 0, .log 1 "b", .log 0 "c"] ⟨fs, fun _ => none⟩ =
        (.ok (), w) ∧
      w.fs.file p = some (text ["c"]) ∧
      (Ref.start.after [.create 0 p none, .copy 1 0, .log 1 "b", .log 0 "c"]).lines p =
        some ["b", "c"] := by
  have h0 : step (.create 0 p none) ⟨fs, fun _ => none⟩ =
      (.ok (), ⟨(withFolders fs p.tail).put p [], setAt (fun _ => none) 0 (some ⟨p, .at p 0⟩)⟩) := by
    simp only [step, (C122_open fs hs p none).1 hc ho]
    rfl
  have h1 : step (.copy 1 0) ⟨(withFolders fs p.tail).put p [],
      setAt (fun _ => none) 0 (some ⟨p, .at p 0⟩)⟩ = (.ok (), ⟨(withFolders fs p.tail).put p [],
      setAt (setAt (fun _ => none) 0 (some ⟨p, .at p 0⟩)) 1 (some ⟨p, .app p⟩)⟩) := by
    have := openApp_ready ((withFolders fs p.tail).put p []) p [] (by simpa using ho) (by simp)
    simp [step, setAt, copyConstruct, this]
  rw [run, M.bind_apply, h0]
  simp only
  rw [run, M.bind_apply, h1]
  simp only
  refine ⟨_, rfl, ?_, ?_⟩
  · simp [Stream.line, put_file_self, splice, text]
  · simp [Ref.after, Ref.next, Ref.put, Ref.start, Status.afterCopy]

/-- A program in which a logger is moved into another, copied, and both are written to. -/
example : Ref.start.allowsAll [.create 0 ["a.txt", "tmp", "/"] (some "today"), .log 0 "one",
    .move 1 0, .copy 2 1, .log 1 "two", .log 2 "three", .destroy 1, .log 0 "nothing",
    .copyAssign 0 2, .log 0 "four"] ∧
    (Ref.start.after [.create 0 ["a.txt", "tmp", "/"] (some "today"), .log 0 "one",
      .move 1 0, .copy 2 1, .log 1 "two", .log 2 "three", .destroy 1, .log 0 "nothing",
      .copyAssign 0 2, .log 0 "four"]).lines ["a.txt", "tmp", "/"] =
      some ["today", "one", "two", "three", "four"] := by
  constructor
  · simp [Ref.allowsAll, Ref.allows, Ref.next, Ref.put, Ref.start, Status.afterCopy]
    exact ⟨⟨_, _, ⟨rfl, rfl⟩, by simp⟩, ⟨_, _, ⟨rfl, rfl⟩, by simp⟩, ⟨_, _, ⟨rfl, rfl⟩, by simp⟩,
      ⟨_, _, ⟨rfl, rfl⟩, by simp⟩⟩
  · simp [Ref.after, Ref.next, Ref.put, Ref.start, Status.afterCopy]

end Verif.Log
