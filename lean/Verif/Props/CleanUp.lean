import Verif.Model.CleanUp
import Verif.Spec.CleanUp
import Verif.Props.Filesystem
import Verif.Props.FileSize
/-!
# C144: the scripts that remove directories
-/
namespace Verif.CleanUp
open Verif Verif.Filesystem Verif.FileSize

/-- A file system without links -/
def NoLinks (fs : FS) : Prop := ∀ k t, (k, Node.link t) ∉ fs

theorem isDir_plain {fs : FS} (h : Tree fs) (hl : NoLinks fs) (d : Path) : fs.isDir d = true ↔ fs.get d = some .dir := by
  unfold FS.isDir FS.follow
  rcases hg : fs.get d with _ | n | _ | t
  · simp
  · simp
  · simp
  · exact absurd ((get_mem h).mp hg) (hl _ _)

theorem iterdir_dir {fs : FS} {p : Path} (h : fs.get p = some .dir) : fs.iterdir p = .ok (fs.children p) := by
  unfold FS.iterdir; rw [follow_dir h]

theorem inner_loop (fs : FS) (few : Path → Except PyExc Bool) (P : Path → Bool) (hP : ∀ d, fs.isDir d = true → few d = .ok (P d))
    (cs acc : List Path) :
    cs.foldlM (m := Except PyExc) (fun acc d => do
      if fs.isDir d then
        if ← few d then return acc ++ [d] else return acc
      else return acc) acc = .ok (acc ++ cs.filter fun d => fs.isDir d && P d) := by
  induction cs generalizing acc with
  | nil => simp [pure, Except.pure]
  | cons c cs ih =>
    rw [List.foldlM_cons]
    by_cases hd : fs.isDir c = true
    · rw [if_pos hd, hP c hd]
      by_cases hc : P c = true
      · simp only [bind, Except.bind, hc, if_true, pure, Except.pure] at ih ⊢
        rw [ih]; simp [hd, hc]
      · simp only [bind, Except.bind, hc, pure, Except.pure] at ih ⊢
        have hc' : P c = false := by simpa using hc
        simp only [Bool.false_eq_true, if_false]
        rw [ih]; simp [hc']
    · rw [if_neg hd]
      simp only [bind, Except.bind, pure, Except.pure] at ih ⊢
      rw [ih]; simp [hd]

theorem select_eq (fs : FS) (few : Path → Except PyExc Bool) (P : Path → Bool)
    (hP : ∀ d, fs.isDir d = true → few d = .ok (P d)) (roots : List Path) (hr : ∀ r ∈ roots, fs.get r = some .dir) :
    select fs few roots = .ok (roots.flatMap fun r => (fs.children r).filter fun d => fs.isDir d && P d) := by
  unfold select
  have : ∀ acc : List Path, roots.foldlM (m := Except PyExc) (fun acc root => do
    (← fs.iterdir root).foldlM (fun acc d => do
      if fs.isDir d then
        if ← few d then return acc ++ [d] else return acc
      else return acc) acc) acc =
      .ok (acc ++ roots.flatMap fun r => (fs.children r).filter fun d => fs.isDir d && P d) := by
    induction roots with
    | nil => intro acc; simp [pure, Except.pure]
    | cons r rs ih =>
      intro acc
      rw [List.foldlM_cons, iterdir_dir (hr r (by simp))]
      have h1 := inner_loop fs few P hP (fs.children r) acc
      simp only [bind, Except.bind] at h1 ⊢
      rw [h1]
      have h2 := ih (fun r' h' => hr r' (by simp [h'])) (acc ++ (fs.children r).filter fun d => fs.isDir d && P d)
      simp only [bind, Except.bind] at h2 ⊢
      rw [h2]; simp
  simpa using this []

theorem each_dirs (limit : Nat) : ∀ (ds : List Path) (fs : FS), Tree fs → NoLinks fs → (∀ e ∈ fs, e.1.length < limit) →
    (∀ d ∈ ds, fs.get d = some .dir) → ds.Pairwise (fun a b => ¬ a <+: b ∧ ¬ b <+: a) →
    each (rmTree limit) ds fs = (fs.filter (fun e => ∀ d ∈ ds, ¬ d <+: e.1), none)
  | [], fs, _, _, _, _, _ => by
    rw [each]
    congr 1
    exact (List.filter_eq_self.mpr (by simp)).symm
  | d :: ds, fs, h, hl, hd, hg, hp => by
    have h1 : rmTree limit fs d = (fs.without d, none) :=
      C135_rm_tree limit fs d h (hg d (by simp)) (fun k t hk => absurd hk (hl k t))
        (fun e he _ => Nat.lt_of_lt_of_le (hd e he) (Nat.le_add_left _ _))
    rw [each, h1]
    simp only
    have hpw := List.pairwise_cons.mp hp
    have h2 := each_dirs limit ds (fs.without d) (without_tree h d) (fun k t hk => hl k t (mem_without.mp hk).1)
      (fun e he => hd e (mem_without.mp he).1)
      (fun c hc => by rw [get_without h (hpw.1 c hc).1]; exact hg c (by simp [hc])) hpw.2
    rw [h2]
    congr 1
    unfold FS.without
    rw [List.filter_filter]
    congr 1
    funext e
    rw [Bool.eq_iff_iff]
    simp only [Under, List.mem_cons, forall_eq_or_imp, Bool.and_eq_true, decide_eq_true_eq, and_comm]
    exact ⟨fun ⟨a, b⟩ => ⟨of_decide_eq_true a, b⟩, fun ⟨a, b⟩ => ⟨decide_eq_true a, b⟩⟩

theorem picked (fs : FS) (h : Tree fs) (P : Path → Bool) (roots : List Path) (hn : roots.Nodup)
    (hr : ∀ r ∈ roots, ∀ r' ∈ roots, r <+: r' → r = r') :
    (roots.flatMap fun r => (fs.children r).filter fun d => fs.isDir d && P d).Pairwise
      (fun a b => ¬ a <+: b ∧ ¬ b <+: a) := by
  have key : ∀ r ∈ roots, ∀ r' ∈ roots, ∀ a ∈ fs.children r, ∀ b ∈ fs.children r', a <+: b → a = b := by
    intro r hr1 r' hr2 a ha b hb hab
    obtain ⟨x, rfl⟩ := child_form ha
    obtain ⟨y, rfl⟩ := child_form hb
    by_cases hlen : r.length = r'.length
    · exact List.IsPrefix.eq_of_length hab (by simp [hlen])
    · have hle := hab.length_le
      simp only [List.length_append, List.length_cons, List.length_nil] at hle
      have h1 : r ++ [x] <+: r' := by
        rcases List.prefix_concat_iff.mp hab with e | h1
        · have := congrArg List.length e
          simp only [List.length_append, List.length_cons, List.length_nil] at this
          omega
        · exact h1
      have := hr r hr1 r' hr2 ((List.prefix_append r [x]).trans h1)
      subst this
      exact absurd rfl hlen
  have nd : (roots.flatMap fun r => (fs.children r).filter fun d => fs.isDir d && P d).Nodup := by
    unfold List.Nodup
    rw [List.pairwise_flatMap]
    refine ⟨fun r _ => (children_nodup h r).filter _, ?_⟩
    refine List.Pairwise.imp_of_mem ?_ hn
    intro r r' _ _ hne
    rintro a ha b hb rfl
    have ha := (children_mem.mp (List.mem_filter.mp ha).1).2.2
    have hb := (children_mem.mp (List.mem_filter.mp hb).1).2.2
    exact hne (ha.symm.trans hb)
  refine List.Pairwise.imp_of_mem ?_ nd
  intro a b ha hb hne
  obtain ⟨r, hr1, ha⟩ := List.mem_flatMap.mp ha
  obtain ⟨r', hr2, hb⟩ := List.mem_flatMap.mp hb
  have ha := (List.mem_filter.mp ha).1
  have hb := (List.mem_filter.mp hb).1
  exact ⟨fun hab => hne (key r hr1 r' hr2 a ha b hb hab), fun hba => hne (key r' hr2 r hr1 b hb a ha hba).symm⟩

theorem removed (limit : Nat) (fs : FS) (h : Tree fs) (hl : NoLinks fs) (hd : ∀ e ∈ fs, e.1.length < limit)
    (P : Path → Bool) (roots : List Path) (hn : roots.Nodup) (hr : ∀ r ∈ roots, ∀ r' ∈ roots, r <+: r' → r = r')
    (k : String) (hk : k = "" ∨ k = "y" ∨ k = "Y") :
    ∃ after, askToRemove limit fs (roots.flatMap fun r => (fs.children r).filter fun d => fs.isDir d && P d) false k =
      (after, none) ∧ Removed fs (fun d => Direct fs roots d ∧ P d = true) after := by
  rw [(C135_ask limit fs _ false k).2.1 hk, each_dirs limit _ fs h hl hd ?_ (picked fs h P roots hn hr)]
  · refine ⟨_, rfl, List.filter_sublist, fun e he => ?_⟩
    rw [List.mem_filter]
    simp only [he, true_and, decide_eq_true_eq]
    constructor
    · rintro h1 ⟨d, ⟨⟨hg, r, hrr, x, rfl⟩, hP⟩, hpre⟩
      refine h1 (r ++ [x]) ?_ hpre
      rw [List.mem_flatMap]
      refine ⟨r, hrr, List.mem_filter.mpr ⟨children_mem.mpr ⟨⟨_, (get_mem h).mp hg⟩, by simp, by simp⟩, ?_⟩⟩
      rw [(isDir_plain h hl _).mpr hg, hP]; rfl
    · intro h1 d hdm hpre
      obtain ⟨r, hrr, hm⟩ := List.mem_flatMap.mp hdm
      obtain ⟨hc, hp⟩ := List.mem_filter.mp hm
      rw [Bool.and_eq_true] at hp
      obtain ⟨x, hx⟩ := child_form hc
      exact h1 ⟨d, ⟨⟨(isDir_plain h hl d).mp hp.1, r, hrr, x, hx⟩, hp.2⟩, hpre⟩
  · intro d hdm
    obtain ⟨r, hrr, hm⟩ := List.mem_flatMap.mp hdm
    obtain ⟨hc, hp⟩ := List.mem_filter.mp hm
    rw [Bool.and_eq_true] at hp
    exact (isDir_plain h hl d).mp hp.1

theorem size_eq (limit : Nat) (fs : FS) (h : Tree fs) (hl : NoLinks fs) (hd : ∀ e ∈ fs, e.1.length < limit) (d : Path)
    (hg : fs.get d = some .dir) : directorySize limit fs d = bytes fs d := by
  rw [C135_directory_size limit fs d h hg (fun e he _ => Nat.lt_of_lt_of_le (hd e he) (Nat.le_add_left _ _))]
  unfold bytes
  congr 1
  apply List.map_congr_left
  rintro ⟨k, n⟩ hk
  rcases n with n | _ | t
  · rfl
  · rfl
  · exact absurd (List.mem_filter.mp hk).1 (hl _ _)

/-- C144: in a tree without links, with roots that are directories and not in one another, `remove_small_directories` with
a text that stands for `n` bytes removes exactly the directories directly in a root whose files have fewer than `n` bytes,
with all in them, if the user agrees. -/
theorem C144_small (limit : Nat) (fs : FS) (h : Tree fs) (hl : NoLinks fs) (hd : ∀ e ∈ fs, e.1.length < limit)
    (roots : List Path) (hdir : ∀ r ∈ roots, fs.get r = some .dir) (hn : roots.Nodup)
    (hr : ∀ r ∈ roots, ∀ r' ∈ roots, r <+: r' → r = r') (size : List Char) (num den : Nat) (hs : Size size num den)
    (k : String) (hk : k = "" ∨ k = "y" ∨ k = "Y") :
    ∃ n after, Nearest num den n ∧ removeSmallDirectories limit fs roots size k = (after, none) ∧
      Removed fs (fun d => Direct fs roots d ∧ bytes fs d < n) after := by
  obtain ⟨n, hp, hnear⟩ := C139_size size num den hs
  have hsel := select_eq fs (fun d => .ok (decide (directorySize limit fs d < n)))
    (fun d => decide (directorySize limit fs d < n)) (fun _ _ => rfl) roots hdir
  obtain ⟨after, h1, h2⟩ := removed limit fs h hl hd (fun d => decide (directorySize limit fs d < n)) roots hn hr k hk
  refine ⟨n, after, hnear, ?_, h2.1, fun e he => (h2.2 e he).trans (not_congr (exists_congr fun d => ?_))⟩
  · unfold removeSmallDirectories
    rw [hp]
    simp only [hsel]
    exact h1
  · constructor
    · rintro ⟨⟨hdr, hb⟩, hpre⟩
      rw [decide_eq_true_eq, size_eq limit fs h hl hd d hdr.1] at hb
      exact ⟨⟨hdr, hb⟩, hpre⟩
    · rintro ⟨⟨hdr, hb⟩, hpre⟩
      exact ⟨⟨hdr, by rw [decide_eq_true_eq, size_eq limit fs h hl hd d hdr.1]; exact hb⟩, hpre⟩

/-- C144: likewise `remove_directories_with_few_files` removes the directories with fewer files than the number given,
counted in all directories below. -/
theorem C144_few (limit : Nat) (fs : FS) (h : Tree fs) (hl : NoLinks fs) (hd : ∀ e ∈ fs, e.1.length < limit)
    (roots : List Path) (hdir : ∀ r ∈ roots, fs.get r = some .dir) (hn : roots.Nodup)
    (hr : ∀ r ∈ roots, ∀ r' ∈ roots, r <+: r' → r = r') (count : Int) (k : String) (hk : k = "" ∨ k = "y" ∨ k = "Y") :
    ∃ after, removeDirectoriesWithFewFiles limit fs roots count k = (after, none) ∧
      Removed fs (fun d => Direct fs roots d ∧ (files fs d : Int) < count) after := by
  have hcount : ∀ d, fs.isDir d = true → countFiles limit fs d = .ok (files fs d) := fun d hdd =>
    C135_count_files limit fs d h ((isDir_plain h hl d).mp hdd) (fun k t hk => absurd hk (hl k t))
      (fun e he _ => Nat.lt_of_lt_of_le (hd e he) (Nat.le_add_left _ _))
  have hsel := select_eq fs (fun d => do let n ← countFiles limit fs d; return decide ((n : Int) < count))
    (fun d => decide ((files fs d : Int) < count)) (fun d hdd => by rw [hcount d hdd]; rfl) roots hdir
  obtain ⟨after, h1, h2⟩ := removed limit fs h hl hd (fun d => decide ((files fs d : Int) < count)) roots hn hr k hk
  refine ⟨after, ?_, h2.1, fun e he => (h2.2 e he).trans (not_congr (exists_congr fun d => by simp only [decide_eq_true_eq]))⟩
  unfold removeDirectoriesWithFewFiles
  rw [hsel]
  exact h1

/-- C144: without agreement, or with a text that is no size, nothing is removed, links or
not. -/
theorem C144_nothing (limit : Nat) (fs : FS) (roots : List Path) (size : List Char) (count : Int) (k : String) :
    (k ≠ "" → k ≠ "y" → k ≠ "Y" → (removeSmallDirectories limit fs roots size k).1 = fs ∧
      (removeDirectoriesWithFewFiles limit fs roots count k).1 = fs) ∧
    ((∀ num den, ¬ Size size num den) → removeSmallDirectories limit fs roots size k = (fs, some .valueError)) := by
  constructor
  · intro h1 h2 h3
    have ha : ∀ ds, askToRemove limit fs ds false k = (fs, none) := fun ds => (C135_ask limit fs ds false k).1 h1 h2 h3
    constructor
    · unfold removeSmallDirectories
      cases parseFileSize size with
      | error e => rfl
      | ok n =>
        simp only
        cases select fs (fun d => .ok (decide (directorySize limit fs d < n))) roots with
        | error e => rfl
        | ok ds => simp only [ha]
    · unfold removeDirectoriesWithFewFiles
      split
      · rfl
      · rw [ha]
  · intro h
    unfold removeSmallDirectories
    rw [C139_no_size size h]

theorem select_bad (fs : FS) (few : Path → Except PyExc Bool) (P : Path → Bool)
    (hP : ∀ d, fs.isDir d = true → few d = .ok (P d)) (roots : List Path) (r : Path) (hr : r ∈ roots)
    (hf : fs.isDir r = false) : select fs few roots = .error .osError := by
  have iter : ∀ d, fs.iterdir d = if fs.isDir d then .ok (fs.glob d) else .error .osError := by
    intro d
    unfold FS.iterdir FS.isDir FS.glob
    rcases fs.follow d with _ | ⟨q, n | _ | t⟩ <;> rfl
  unfold select
  have : ∀ acc : List Path, roots.foldlM (m := Except PyExc) (fun acc root => do
    (← fs.iterdir root).foldlM (fun acc d => do
      if fs.isDir d then
        if ← few d then return acc ++ [d] else return acc
      else return acc) acc) acc = .error .osError := by
    induction roots with
    | nil => simp at hr
    | cons c rs ih =>
      intro acc
      rw [List.foldlM_cons, iter]
      by_cases hc : fs.isDir c = true
      · rw [if_pos hc]
        have hr' : r ∈ rs := by
          rcases List.mem_cons.mp hr with rfl | h
          · rw [hf] at hc; cases hc
          · exact h
        have h1 := inner_loop fs few P hP (fs.glob c) acc
        have h2 := ih hr' (acc ++ (fs.glob c).filter fun d => fs.isDir d && P d)
        simp only [bind, Except.bind] at h1 h2 ⊢
        rw [h1]
        exact h2
      · rw [if_neg hc]; rfl
  exact this []

/-- C144: if a root is not a directory the script raises before it asks, and nothing is removed, not even in the other
roots. -/
theorem C144_bad_root (limit : Nat) (fs : FS) (roots : List Path) (size : List Char) (num den : Nat)
    (hs : Size size num den) (k : String) (r : Path) (hr : r ∈ roots) (hf : fs.isDir r = false) :
    removeSmallDirectories limit fs roots size k = (fs, some .osError) := by
  obtain ⟨n, hp, -⟩ := C139_size size num den hs
  have := select_bad fs (fun d => .ok (decide (directorySize limit fs d < n)))
    (fun d => decide (directorySize limit fs d < n)) (fun _ _ => rfl) roots r hr hf
  unfold removeSmallDirectories
  rw [hp]
  simp only [this]

/-- C144: with a root in another root, or the same root twice, a directory is listed that is gone when its turn comes: the
script raises halfway, and the directories after it stay. -/
theorem C144_nested_wrong :
    let fs : FS := [([], .dir), ([['a']], .dir), ([['a'], ['b']], .dir), ([['a'], ['b'], ['c']], .dir), ([['z']], .dir),
      ([['z'], ['y']], .dir)]
    Tree fs ∧
    removeDirectoriesWithFewFiles 9 fs [[['a']], [['a'], ['b']], [['z']]] 1 "y" =
      ([([], .dir), ([['a']], .dir), ([['z']], .dir), ([['z'], ['y']], .dir)], some .osError) ∧
    (removeDirectoriesWithFewFiles 9 fs [[['z']], [['z']]] 1 "y").2 = some .osError := by
  refine ⟨⟨by decide, by decide⟩, by rfl, by rfl⟩

/-- The hypotheses are met: of two directories the one with fewer than two bytes is removed. -/
example : removeSmallDirectories 9 [([], .dir), ([['a']], .dir), ([['a'], ['f']], .file 1), ([['b']], .dir),
    ([['b'], ['f']], .file 2)] [[]] ['2'] "y" = ([([], .dir), ([['b']], .dir), ([['b'], ['f']], .file 2)], none) := by
  rfl

example : ∃ n after, Nearest 2 1 n ∧ removeSmallDirectories 9 [([], .dir), ([['a']], .dir), ([['a'], ['f']], .file 1)] [[]]
    ['2'] "" = (after, none) ∧ Removed [([], .dir), ([['a']], .dir), ([['a'], ['f']], .file 1)]
      (fun d => Direct [([], .dir), ([['a']], .dir), ([['a'], ['f']], .file 1)] [[]] d ∧
        bytes [([], .dir), ([['a']], .dir), ([['a'], ['f']], .file 1)] d < n) after :=
  C144_small 9 _ ⟨by decide, by decide⟩ (by intro k t h; simp at h) (by decide) [[]] (by decide) (by decide) (by decide)
    ['2'] 2 1 (Size.whole ['2'] [] [] 1 2 (by simp) (by intro c hc; simp at hc; subst hc; decide) .none (.inl rfl) rfl) ""
    (.inl rfl)

end Verif.CleanUp
