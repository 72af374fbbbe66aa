import Verif.Spec.Filesystem
/-!
# C135: directory trees
-/
namespace Verif.Filesystem
open Verif

theorem get_mem' {fs : FS} (hl : (fs.map Prod.fst).Nodup) {k : Path} {n : Node} : fs.get k = some n ↔ (k, n) ∈ fs := by
  induction fs with
  | nil => simp [FS.get]
  | cons e l ih =>
    obtain ⟨k', n'⟩ := e
    rw [List.map_cons, List.nodup_cons] at hl
    by_cases hk : k' = k
    · subst hk
      simp only [FS.get, List.find?_cons, decide_true, Option.map_some, Option.some.injEq, List.mem_cons,
        Prod.mk.injEq, true_and]
      constructor
      · exact fun h => .inl h.symm
      · rintro (h | h)
        · exact h.symm
        · exact absurd (List.mem_map_of_mem (f := Prod.fst) h) hl.1
    · have : FS.get ((k', n') :: l) k = FS.get l k := by
        simp [FS.get, hk]
      rw [this, ih hl.2]
      simp [Ne.symm hk]

theorem get_mem {fs : FS} (h : Tree fs) {k : Path} {n : Node} : fs.get k = some n ↔ (k, n) ∈ fs := get_mem' h.once

theorem key_mem {fs : FS} {k : Path} : k ∈ fs.map Prod.fst ↔ ∃ n, (k, n) ∈ fs := by
  simp

theorem children_mem {fs : FS} {p k : Path} : k ∈ fs.children p ↔ (∃ n, (k, n) ∈ fs) ∧ k ≠ [] ∧ k.dropLast = p := by
  unfold FS.children
  rw [List.mem_filter, key_mem]
  simp

theorem child_form {fs : FS} {p k : Path} (h : k ∈ fs.children p) : ∃ x, k = p ++ [x] := by
  obtain ⟨-, h1, h2⟩ := children_mem.mp h
  exact ⟨k.getLast h1, by rw [← h2]; exact (List.dropLast_concat_getLast h1).symm⟩

/-- What is above an entry is a directory -/
theorem above {fs : FS} (h : Tree fs) {k : Path} {n : Node} (hk : (k, n) ∈ fs) {q : Path} (hq : q <+: k) (hne : q ≠ k) :
    fs.get q = some .dir := by
  induction hl : k.length generalizing k n with
  | zero =>
    have : k = [] := List.eq_nil_of_length_eq_zero hl
    subst this
    exact absurd (List.prefix_nil.mp hq) hne
  | succ m ih =>
    have hk0 : k ≠ [] := by rintro rfl; simp at hl
    have hd := h.inDir k (key_mem.mpr ⟨n, hk⟩) hk0
    by_cases he : q = k.dropLast
    · rw [he]; exact hd
    · refine ih ((get_mem h).mp hd) ?_ he (by rw [List.length_dropLast, hl]; rfl)
      obtain ⟨t, rfl⟩ := hq
      have ht : t ≠ [] := by rintro rfl; simp at hne
      rw [List.dropLast_append_of_ne_nil ht]
      exact List.prefix_append _ _

theorem children_nodup {fs : FS} (h : Tree fs) (p : Path) : (fs.children p).Nodup :=
  List.Pairwise.filter _ h.once

/-- Everything below a directory is below exactly one of the paths in it -/
theorem below_child {fs : FS} (h : Tree fs) {p k : Path} {n : Node} (hk : (k, n) ∈ fs) (hp : p <+: k) (hne : k ≠ p) :
    ∃ c ∈ fs.children p, c <+: k := by
  obtain ⟨t, rfl⟩ := hp
  rcases t with _ | ⟨x, t⟩
  · simp at hne
  · have hc : p ++ [x] <+: p ++ x :: t := ⟨t, by simp⟩
    refine ⟨p ++ [x], children_mem.mpr ⟨?_, by simp, by simp⟩, hc⟩
    by_cases he : p ++ [x] = p ++ x :: t
    · rw [he]; exact ⟨n, hk⟩
    · exact ⟨.dir, (get_mem h).mp (above h hk hc he)⟩

theorem prefix_child {p : Path} {x y : Name} {k : Path} (h1 : p ++ [x] <+: k) (h2 : p ++ [y] <+: k) : x = y := by
  obtain ⟨t, rfl⟩ := h1
  obtain ⟨u, hu⟩ := h2
  simp only [List.append_assoc, List.append_cancel_left_eq, List.cons_append, List.nil_append, List.cons.injEq] at hu
  exact hu.1.symm

theorem mem_without {fs : FS} {c : Path} {e : Path × Node} : e ∈ fs.without c ↔ e ∈ fs ∧ ¬ c <+: e.1 := by
  unfold FS.without Under
  simp

theorem without_tree {fs : FS} (h : Tree fs) (c : Path) : Tree (fs.without c) := by
  have hn : ((fs.without c).map Prod.fst).Nodup := h.once.sublist (List.filter_sublist.map _)
  refine ⟨hn, ?_⟩
  intro k hk hk0
  obtain ⟨n, hkn⟩ := key_mem.mp hk
  obtain ⟨h1, h2⟩ := mem_without.mp hkn
  have hd := h.inDir k (key_mem.mpr ⟨n, h1⟩) hk0
  have h3 : (k.dropLast, Node.dir) ∈ fs.without c := by
    refine mem_without.mpr ⟨(get_mem h).mp hd, fun hc => h2 (hc.trans (List.dropLast_prefix k))⟩
  exact (get_mem' hn).mpr h3

theorem get_without {fs : FS} (h : Tree fs) {c k : Path} (hk : ¬ c <+: k) : (fs.without c).get k = fs.get k := by
  apply Option.ext
  intro n
  rw [get_mem (without_tree h c), get_mem h, mem_without]
  exact ⟨fun h => h.1, fun h => ⟨h, hk⟩⟩

/-- The links below a path lead to files that are not below it -/
def LinksOut (fs : FS) (p : Path) : Prop :=
  ∀ k t, (k, Node.link t) ∈ fs → p <+: k → ¬ p <+: t ∧ ∃ n, fs.get t = some (.file n)

/-- What is needed to remove a tree -/
structure Ready (fs : FS) (p : Path) (limit : Nat) : Prop where
  tree : Tree fs
  links : LinksOut fs p
  depth : ∀ e ∈ fs, p <+: e.1 → e.1.length < p.length + limit
  dir : fs.get p = some .dir

theorem Ready.without {fs : FS} {p : Path} {limit : Nat} (h : Ready fs p limit) {x : Name} :
    Ready (fs.without (p ++ [x])) p limit := by
  have hnot : ∀ t, ¬ p <+: t → ¬ p ++ [x] <+: t := fun t ht hc => ht ((List.prefix_append _ _).trans hc)
  refine ⟨without_tree h.tree _, ?_, ?_, ?_⟩
  · intro k t hk hp
    obtain ⟨h1, h2⟩ := h.links k t (mem_without.mp hk).1 hp
    exact ⟨h1, by rw [get_without h.tree (hnot t h1)]; exact h2⟩
  · exact fun e he => h.depth e (mem_without.mp he).1
  · rw [get_without h.tree]
    · exact h.dir
    · intro hc
      have := hc.length_le
      rw [List.length_append, List.length_singleton] at this
      omega

theorem Ready.child {fs : FS} {p : Path} {limit : Nat} (h : Ready fs p (limit + 1)) {x : Name}
    (hd : fs.get (p ++ [x]) = some .dir) : Ready fs (p ++ [x]) limit := by
  refine ⟨h.tree, ?_, ?_, hd⟩
  · intro k t hk hp
    obtain ⟨h1, h2⟩ := h.links k t hk ((List.prefix_append _ _).trans hp)
    exact ⟨fun hc => h1 ((List.prefix_append _ _).trans hc), h2⟩
  · intro e he hp
    have := h.depth e he ((List.prefix_append _ _).trans hp)
    simp only [List.length_append, List.length_singleton]
    omega

/-- An entry that is no directory is all there is under its path -/
theorem erase_leaf {fs : FS} (h : Tree fs) {c : Path} (hc : fs.get c ≠ some .dir) : fs.erase c = fs.without c := by
  unfold FS.erase FS.without Under
  apply List.filter_congr
  intro e he
  have : e.1 = c ↔ c <+: e.1 := by
    constructor
    · intro h; rw [h]; exact List.prefix_refl _
    · intro hp
      by_cases hne : c = e.1
      · exact hne.symm
      · exact absurd (above h (n := e.2) he hp hne) hc
  simp only [ne_eq, this]

theorem follow_dir {fs : FS} {p : Path} (h : fs.get p = some .dir) : fs.follow p = some (p, .dir) := by
  unfold FS.follow
  rw [h]

/-- The loop over the paths in a directory -/
theorem each_child {p : Path} {limit : Nat} (f : FS → Path → FS × Option PyExc)
    (hf : ∀ fs x, Ready fs p (limit + 1) → (∃ n, (p ++ [x], n) ∈ fs) → f fs (p ++ [x]) = (fs.without (p ++ [x]), none))
    (cs : List Path) (fs : FS) (h : Ready fs p (limit + 1)) (hnd : cs.Nodup) (hcs : ∀ c ∈ cs, c ∈ fs.children p) :
    each f cs fs = (fs.filter (fun e => ∀ c ∈ cs, ¬ c <+: e.1), none) := by
  induction cs generalizing fs with
  | nil =>
    simp only [each, List.not_mem_nil, false_implies, implies_true, decide_true, Prod.mk.injEq, and_true]
    exact (List.filter_eq_self.mpr (by simp)).symm
  | cons c cs ih =>
    obtain ⟨x, hx⟩ := child_form (hcs c List.mem_cons_self)
    obtain ⟨hm, -, -⟩ := children_mem.mp (hcs c List.mem_cons_self)
    subst hx
    rw [each, hf fs x h hm]
    simp only
    rw [List.nodup_cons] at hnd
    rw [ih _ h.without hnd.2 ?_]
    · unfold FS.without Under
      rw [List.filter_filter]
      simp only [List.forall_mem_cons, Bool.decide_and, Bool.and_comm]
    · intro d hd
      obtain ⟨⟨n, h1⟩, h2, h3⟩ := children_mem.mp (hcs d (List.mem_cons_of_mem _ hd))
      refine children_mem.mpr ⟨⟨n, mem_without.mpr ⟨h1, ?_⟩⟩, h2, h3⟩
      intro hc
      obtain ⟨y, rfl⟩ := child_form (hcs d (List.mem_cons_of_mem _ hd))
      have := prefix_child hc (List.prefix_refl _)
      subst this
      exact hnd.1 hd

theorem rmTree_ready (limit : Nat) (fs : FS) (p : Path) (h : Ready fs p limit) : rmTree limit fs p = (fs.without p, none) := by
  induction limit generalizing fs p with
  | zero =>
    have := h.depth _ ((get_mem h.tree).mp h.dir) (List.prefix_refl _)
    simp at this
  | succ limit ih =>
    have hf : ∀ fs x, Ready fs p (limit + 1) → (∃ n, (p ++ [x], n) ∈ fs) →
        (fun (fs : FS) child => if fs.isFile child then (fs.erase child, none) else rmTree limit fs child) fs (p ++ [x]) =
          (fs.without (p ++ [x]), none) := by
      rintro fs x h ⟨n, hn⟩
      have hg := (get_mem h.tree).mpr hn
      simp only
      rcases n with n | _ | t
      · have : fs.isFile (p ++ [x]) = true := by unfold FS.isFile FS.follow; rw [hg]
        rw [if_pos this, erase_leaf h.tree (by rw [hg]; simp)]
      · have : fs.isFile (p ++ [x]) = false := by unfold FS.isFile FS.follow; rw [hg]
        rw [this]
        exact ih fs _ (h.child hg)
      · obtain ⟨-, n, ht⟩ := h.links _ t hn (List.prefix_append _ _)
        have : fs.isFile (p ++ [x]) = true := by unfold FS.isFile FS.follow; rw [hg]; simp [ht]
        rw [if_pos this, erase_leaf h.tree (by rw [hg]; simp)]
    have hglob : fs.glob p = fs.children p := by unfold FS.glob; rw [follow_dir h.dir]
    rw [rmTree, hglob, each_child _ hf _ _ h (children_nodup h.tree p) (fun _ h => h)]
    simp only
    obtain ⟨fs', hfs⟩ : ∃ fs' : FS, fs' = fs.filter (fun e => ∀ c ∈ fs.children p, ¬ c <+: e.1) := ⟨_, rfl⟩
    rw [← hfs]
    have hmem : ∀ e, e ∈ fs' ↔ e ∈ fs ∧ ∀ c ∈ fs.children p, ¬ c <+: e.1 := by
      intro e; rw [hfs, List.mem_filter]; simp
    have hnd : (fs'.map Prod.fst).Nodup := by
      rw [hfs]; exact h.tree.once.sublist (List.filter_sublist.map _)
    have hdir : fs'.get p = some .dir := by
      rw [get_mem' hnd, hmem]
      refine ⟨(get_mem h.tree).mp h.dir, fun c hc hp => ?_⟩
      obtain ⟨x, rfl⟩ := child_form hc
      have := hp.length_le
      rw [List.length_append, List.length_singleton] at this
      simp only at this
      omega
    have hempty : fs'.children p = [] := by
      apply List.eq_nil_iff_forall_not_mem.mpr
      intro c hc
      obtain ⟨⟨n, hn⟩, h1, h2⟩ := children_mem.mp hc
      obtain ⟨h3, h4⟩ := (hmem _).mp hn
      exact h4 c (children_mem.mpr ⟨⟨n, h3⟩, h1, h2⟩) (List.prefix_refl _)
    unfold FS.rmdir
    rw [hdir]
    simp only [hempty, if_true, Prod.mk.injEq, and_true]
    rw [hfs]
    unfold FS.erase FS.without Under
    rw [List.filter_filter]
    apply List.filter_congr
    intro e he
    have : (e.1 ≠ p ∧ ∀ c ∈ fs.children p, ¬ c <+: e.1) ↔ ¬ p <+: e.1 := by
      constructor
      · rintro ⟨h1, h2⟩ hp
        obtain ⟨c, hc, hce⟩ := below_child h.tree (n := e.2) he hp h1
        exact h2 c hc hce
      · intro hp
        refine ⟨fun h => hp (by rw [h]; exact List.prefix_refl _), fun c hc hce => ?_⟩
        obtain ⟨x, rfl⟩ := child_form hc
        exact hp ((List.prefix_append _ _).trans hce)
    rw [← decide_eq_decide.mpr this, Bool.decide_and]

/-- C135: `rm_tree` of a directory removes it with all below it and nothing else, without an exception, when every link
in it leads to a file outside. -/
theorem C135_rm_tree (limit : Nat) (fs : FS) (p : Path) (h : Tree fs) (hp : fs.get p = some .dir)
    (hl : ∀ k t, (k, Node.link t) ∈ fs → p <+: k → ¬ p <+: t ∧ ∃ n, fs.get t = some (.file n))
    (hd : ∀ e ∈ fs, p <+: e.1 → e.1.length < p.length + limit) : rmTree limit fs p = (fs.without p, none) :=
  rmTree_ready limit fs p ⟨h, hl, hd, hp⟩

/-- A small file system: `/a` with a file `f`, a directory `d` with a file, and a link to the file `/g` -/
def sample : FS :=
  [([], .dir), ([['a']], .dir), ([['a'], ['f']], .file 1), ([['a'], ['d']], .dir), ([['a'], ['d'], ['f']], .file 2),
    ([['a'], ['l']], .link [['g']]), ([['g']], .file 3)]

theorem sample_tree : Tree sample := ⟨by decide, by decide⟩

/-- The hypotheses are met. -/
example : rmTree 3 sample [['a']] = ([([], .dir), ([['g']], .file 3)], none) := by
  rw [C135_rm_tree 3 sample [['a']] sample_tree (by decide) ?_ (by decide)]
  · decide
  · intro k t h
    simp only [sample, List.mem_cons, Prod.mk.injEq, reduceCtorEq, and_false, Node.link.injEq, List.not_mem_nil, or_false,
      false_or] at h
    obtain ⟨rfl, rfl⟩ := h
    exact fun _ => ⟨by decide, 3, by decide⟩

/-- C135: a link to a directory is followed: the files of a directory elsewhere are deleted, and the call raises. -/
theorem C135_rm_tree_link_wrong :
    let fs : FS := [([], .dir), ([['a']], .dir), ([['a'], ['l']], .link [['b']]), ([['b']], .dir), ([['b'], ['f']], .file 1)]
    Tree fs ∧ rmTree 9 fs [['a']] = (fs.erase [['b'], ['f']], some .osError) := by
  refine ⟨⟨by decide, by decide⟩, by decide⟩

/-- C135: with a link to a file of the same directory the call raises or not, depending on the order of the
directory. -/
theorem C135_rm_tree_order :
    (rmTree 9 [([], .dir), ([['a']], .dir), ([['a'], ['f']], .file 1), ([['a'], ['l']], .link [['a'], ['f']])] [['a']]).2 =
      some .osError ∧
    rmTree 9 [([], .dir), ([['a']], .dir), ([['a'], ['l']], .link [['a'], ['f']]), ([['a'], ['f']], .file 1)] [['a']] =
      ([([], .dir)], none) := by decide

/-- C135: a file, a link or nothing is not removed: the call raises and changes nothing, except that a link to a directory
is gone through. -/
theorem C135_rm_tree_no_dir (limit : Nat) (fs : FS) (p : Path) (h : fs.isDir p = false) :
    rmTree (limit + 1) fs p = (fs, some .osError) := by
  have hg : fs.glob p = [] := by
    unfold FS.glob
    unfold FS.isDir at h
    split
    · rename_i heq; rw [heq] at h; cases h
    · rfl
  rw [rmTree, hg]
  simp only [each]
  unfold FS.rmdir
  split
  · rename_i heq
    unfold FS.isDir at h
    rw [follow_dir heq] at h
    cases h
  · rfl

theorem each_sublist (f : FS → Path → FS × Option PyExc) (hf : ∀ fs c, List.Sublist (f fs c).1 fs) (cs : List Path) (fs : FS) :
    List.Sublist (each f cs fs).1 fs := by
  induction cs generalizing fs with
  | nil => exact List.Sublist.refl _
  | cons c cs ih =>
    have h := hf fs c
    rw [each]
    split
    · rename_i heq; rw [heq] at h; exact (ih _).trans h
    · rename_i heq; rw [heq] at h; exact h

/-- C135: whatever the tree and the links are, `rm_tree` only takes entries away. -/
theorem C135_rm_tree_removes (limit : Nat) (fs : FS) (p : Path) : List.Sublist (rmTree limit fs p).1 fs := by
  have rmdir : ∀ fs : FS, List.Sublist (fs.rmdir p).1 fs := by
    intro fs
    unfold FS.rmdir
    split
    · split
      · exact List.filter_sublist
      · exact List.Sublist.refl _
    · exact List.Sublist.refl _
  induction limit generalizing fs p with
  | zero => exact List.Sublist.refl _
  | succ limit ih =>
    have h := each_sublist (fun fs child => if fs.isFile child then (fs.erase child, none) else rmTree limit fs child)
      (by
        intro fs c
        split
        · exact List.filter_sublist
        · refine ih fs c ?_
          intro fs
          unfold FS.rmdir
          split
          · split
            · exact List.filter_sublist
            · exact List.Sublist.refl _
          · exact List.Sublist.refl _) (fs.glob p) fs
    rw [rmTree]
    split
    · rename_i heq
      rw [heq] at h
      exact (rmdir _).trans h
    · rename_i heq
      rw [heq] at h
      exact h

/-- C135: `rm_tree` succeeds only for a directory that is not a link; then the path is gone. -/
theorem C135_rm_tree_success (limit : Nat) (fs : FS) (p : Path) (h : Tree fs) (hs : (rmTree limit fs p).2 = none) :
    fs.get p = some .dir ∧ (rmTree limit fs p).1.get p = none := by
  rcases limit with _ | limit
  · cases hs
  · have hsub := each_sublist (fun fs child => if fs.isFile child then (fs.erase child, none) else rmTree limit fs child)
      (by
        intro fs c
        split
        · exact List.filter_sublist
        · exact C135_rm_tree_removes limit fs c) (fs.glob p) fs
    rw [rmTree] at hs ⊢
    split at hs
    · rename_i fs' heq
      rw [heq] at hsub
      simp only at hsub
      unfold FS.rmdir at hs ⊢
      split at hs
      · rename_i hd
        split at hs
        · rename_i hc
          simp only [hc, if_true]
          have hnd : (fs'.map Prod.fst).Nodup := h.once.sublist (hsub.map _)
          refine ⟨(get_mem h).mpr (hsub.subset ((get_mem' hnd).mp hd)), ?_⟩
          unfold FS.erase FS.get
          rw [Option.map_eq_none_iff, List.find?_eq_none]
          intro e he
          rw [List.mem_filter] at he
          simpa using he.2
        · cases hs
      · cases hs
    · cases hs

/-! ### Counting -/

/-- A sum over all below a directory is the sum over the paths in it of the sums below them -/
theorem sum_below {fs : FS} (h : Tree fs) (p : Path) (w : Path × Node → Nat) :
    ((fs.below p).map w).sum = ((fs.children p).map fun c => ((fs.filter fun e => c <+: e.1).map w).sum).sum := by
  have swap : ∀ (cs : List Path) (l : FS), (cs.map fun c => ((l.filter fun e => c <+: e.1).map w).sum).sum =
      (l.map fun e => (cs.filter fun c => c <+: e.1).length * w e).sum := by
    intro cs l
    induction l with
    | nil => simp; induction cs <;> simp_all
    | cons e l ih =>
      rw [List.map_cons, List.sum_cons, ← ih]
      clear ih
      induction cs with
      | nil => simp
      | cons c cs ih =>
        rw [List.map_cons, List.sum_cons, ih]
        by_cases hc : c <+: e.1
        · simp [hc, Nat.add_mul]
          omega
        · simp [hc]
          omega
  rw [swap]
  have one : ∀ e ∈ fs, ((fs.children p).filter fun c => c <+: e.1).length = if Under p e ∧ e.1 ≠ p then 1 else 0 := by
    intro e he
    split
    · rename_i hu
      obtain ⟨c, hc, hce⟩ := below_child h (n := e.2) he hu.1 hu.2
      have : (fs.children p).filter (fun c => c <+: e.1) = [c] := by
        have hn := (children_nodup h p).filter (fun c => decide (c <+: e.1))
        have hall : ∀ d ∈ (fs.children p).filter (fun c => c <+: e.1), d = c := by
          intro d hd
          rw [List.mem_filter, decide_eq_true_eq] at hd
          obtain ⟨x, rfl⟩ := child_form hc
          obtain ⟨y, rfl⟩ := child_form hd.1
          rw [prefix_child hd.2 hce]
        have hin : c ∈ (fs.children p).filter (fun c => c <+: e.1) := by
          rw [List.mem_filter, decide_eq_true_eq]; exact ⟨hc, hce⟩
        generalize (fs.children p).filter (fun c => c <+: e.1) = l at hn hall hin
        rcases l with _ | ⟨a, _ | ⟨b, l⟩⟩
        · simp at hin
        · rw [hall a (by simp)]
        · have h1 := hall a (by simp)
          have h2 := hall b (by simp)
          rw [h1, h2] at hn
          simp at hn
      rw [this]
      rfl
    · rename_i hu
      rw [List.length_eq_zero_iff, List.filter_eq_nil_iff]
      intro c hc hce
      rw [decide_eq_true_eq] at hce
      obtain ⟨x, rfl⟩ := child_form hc
      refine hu ⟨(List.prefix_append _ _).trans hce, fun he => ?_⟩
      rw [he] at hce
      have := hce.length_le
      rw [List.length_append, List.length_singleton] at this
      omega
  have := List.map_congr_left (l := fs) (f := fun e => ((fs.children p).filter fun c => c <+: e.1).length * w e)
    (g := fun e => (if Under p e ∧ e.1 ≠ p then 1 else 0) * w e) (fun e he => by rw [one e he])
  rw [this]
  unfold FS.below
  generalize fs = l
  induction l with
  | nil => rfl
  | cons e l ih =>
    rw [List.map_cons, List.sum_cons, ← ih]
    by_cases hu : Under p e ∧ e.1 ≠ p
    · rw [List.filter_cons_of_pos (by simpa using hu), if_pos hu]; simp
    · rw [List.filter_cons_of_neg (by simpa using hu), if_neg hu]; simp

/-- The entry of a path, and those below it -/
theorem sum_under {fs : FS} (hn : (fs.map Prod.fst).Nodup) {c : Path} {n : Node} (hc : (c, n) ∈ fs) (w : Path × Node → Nat) :
    ((fs.filter fun e => c <+: e.1).map w).sum = w (c, n) + ((fs.below c).map w).sum := by
  induction fs with
  | nil => simp at hc
  | cons e l ih =>
    rw [List.map_cons, List.nodup_cons] at hn
    rcases List.mem_cons.mp hc with rfl | hc
    · rw [List.filter_cons_of_pos (by simp), List.map_cons, List.sum_cons]
      congr 3
      unfold FS.below Under
      rw [List.filter_cons_of_neg (by simp)]
      apply List.filter_congr
      intro e he
      have : e.1 ≠ c := by
        intro hec
        have := List.mem_map_of_mem (f := Prod.fst) he
        rw [hec] at this
        exact hn.1 this
      simp [this]
    · have he : e.1 ≠ c := by
        intro h
        rw [h] at hn
        exact hn.1 (List.mem_map_of_mem (f := Prod.fst) hc)
      have ih := ih hn.2 hc
      unfold FS.below Under at ih ⊢
      by_cases hp : c <+: e.1
      · rw [List.filter_cons_of_pos (by simpa using hp), List.filter_cons_of_pos (by simpa using ⟨hp, he⟩), List.map_cons,
          List.sum_cons, ih, List.map_cons, List.sum_cons]
        omega
      · rw [List.filter_cons_of_neg (by simpa using hp), List.filter_cons_of_neg (by simp [hp]), ih]

theorem below_leaf {fs : FS} (h : Tree fs) {c : Path} (hc : fs.get c ≠ some .dir) : fs.below c = [] := by
  unfold FS.below
  rw [List.filter_eq_nil_iff]
  intro e he hu
  rw [decide_eq_true_eq] at hu
  exact hc (above h (n := e.2) he hu.1 (Ne.symm hu.2))

/-- No link below a path leads to a directory -/
def NoLinkToDir (fs : FS) (p : Path) : Prop := ∀ k t, (k, Node.link t) ∈ fs → p <+: k → fs.get t ≠ some .dir

theorem isDir_iff {fs : FS} (h : Tree fs) {p k : Path} (hl : NoLinkToDir fs p) (hp : p <+: k) :
    fs.isDir k = true ↔ fs.get k = some .dir := by
  constructor
  · intro hd
    unfold FS.isDir FS.follow at hd
    rcases hg : fs.get k with _ | n | _ | t
    · rw [hg] at hd; cases hd
    · rw [hg] at hd; cases hd
    · rfl
    · rw [hg] at hd
      have := hl k t ((get_mem h).mp hg) hp
      rcases ht : fs.get t with _ | n | _ | u
      · simp [ht] at hd
      · simp [ht] at hd
      · exact absurd ht this
      · simp [ht] at hd
  · intro hg
    unfold FS.isDir
    rw [follow_dir hg]

/-- C135: `count_files_recursive` is the number of entries below a directory that are not directories, when no link in it
leads to a directory. -/
theorem C135_count_files (limit : Nat) (fs : FS) (p : Path) (h : Tree fs) (hp : fs.get p = some .dir)
    (hl : ∀ k t, (k, Node.link t) ∈ fs → p <+: k → fs.get t ≠ some .dir)
    (hd : ∀ e ∈ fs, p <+: e.1 → e.1.length < p.length + limit) :
    countFiles limit fs p = .ok ((fs.below p).countP fun e => e.2 ≠ .dir) := by
  have cnt : ∀ l : FS, l.countP (fun e => e.2 ≠ .dir) = (l.map fun e => if e.2 ≠ .dir then 1 else 0).sum := by
    intro l
    induction l with
    | nil => rfl
    | cons e l ih =>
      rw [List.countP_cons, ih, List.map_cons, List.sum_cons, Nat.add_comm]
      congr 1
      by_cases he : e.2 = .dir <;> simp [he]
  induction limit generalizing p with
  | zero =>
    have := hd _ ((get_mem h).mp hp) (List.prefix_refl _)
    simp at this
  | succ limit ih =>
    have hit : fs.iterdir p = .ok (fs.children p) := by unfold FS.iterdir; rw [follow_dir hp]
    rw [countFiles, hit, cnt, sum_below h]
    have loop : ∀ (cs : List Path) (n : Nat), (∀ c ∈ cs, c ∈ fs.children p) →
        cs.foldlM (fun count child => do
          if fs.isDir child then return count + (← countFiles limit fs child) else return count + 1) n =
        (.ok (n + (cs.map fun c => ((fs.filter fun e => c <+: e.1).map
          fun e => if e.2 ≠ .dir then 1 else 0).sum).sum) : Except PyExc Nat) := by
      intro cs
      induction cs with
      | nil => intro n _; rfl
      | cons c cs ihc =>
        intro n hcs
        have hc := hcs c List.mem_cons_self
        obtain ⟨⟨m, hm⟩, -, -⟩ := children_mem.mp hc
        obtain ⟨x, hx⟩ := child_form hc
        have hpc : p <+: c := by rw [hx]; exact List.prefix_append _ _
        have hs := sum_under h.once hm (fun e => if e.2 ≠ .dir then 1 else 0)
        rw [List.foldlM_cons, List.map_cons, List.sum_cons, hs]
        by_cases hdir : fs.get c = some .dir
        · have hmd : m = .dir := by
            have := (get_mem h).mpr hm
            rw [hdir] at this
            exact (Option.some.inj this).symm
          rw [(isDir_iff h hl hpc).mpr hdir]
          rw [ih c hdir (fun k t hk hck => hl k t hk (hpc.trans hck)) ?_, cnt]
          · simp only [if_true, bind, Except.bind, pure, Except.pure]
            have := ihc (n + ((fs.below c).map fun e => if e.2 ≠ .dir then 1 else 0).sum)
              (fun d hd => hcs d (List.mem_cons_of_mem _ hd))
            simp only [bind, Except.bind, pure, Except.pure] at this
            rw [this, hmd]
            simp only [ne_eq, not_true_eq_false, if_false, Except.ok.injEq]
            omega
          · intro e he hce
            have := hd e he (hpc.trans hce)
            rw [hx, List.length_append, List.length_singleton]
            omega
        · have hf : fs.isDir c = false := by
            rcases hb : fs.isDir c with _ | _
            · rfl
            · exact absurd ((isDir_iff h hl hpc).mp hb) hdir
          have hmd : m ≠ .dir := by
            rintro rfl
            exact hdir ((get_mem h).mpr hm)
          rw [hf, below_leaf h hdir]
          simp only [Bool.false_eq_true, if_false, bind, Except.bind, pure, Except.pure]
          have := ihc (n + 1) (fun d hd => hcs d (List.mem_cons_of_mem _ hd))
          simp only [bind, Except.bind, pure, Except.pure] at this
          rw [this]
          simp only [ne_eq, hmd, not_false_eq_true, if_true, List.map_nil, List.sum_nil, Except.ok.injEq]
          omega
    have := loop (fs.children p) 0 (fun _ h => h)
    simp only [bind, Except.bind, pure, Except.pure, Nat.zero_add] at this ⊢
    exact this

/-- The size of an entry: that of the file, or of the file a link leads to -/
def entrySize (fs : FS) : Path × Node → Nat
  | (_, .file n) => n
  | (_, .dir) => 0
  | (_, .link t) => match fs.get t with
    | some (.file n) => n
    | _ => 0

/-- C135: `directory_size` is the sum of the sizes of the files below a directory; a link to a file counts as the file,
links to directories count nothing. -/
theorem C135_directory_size (depth : Nat) (fs : FS) (p : Path) (h : Tree fs) (hp : fs.get p = some .dir)
    (hd : ∀ e ∈ fs, p <+: e.1 → e.1.length < p.length + depth) :
    directorySize depth fs p = ((fs.below p).map (entrySize fs)).sum := by
  have size : ∀ k n, (k, n) ∈ fs → (if fs.isFile k then fs.size k else 0) = entrySize fs (k, n) := by
    intro k n hk
    have hg := (get_mem h).mpr hk
    unfold FS.isFile FS.size FS.follow
    rw [hg]
    rcases n with n | _ | t
    · rfl
    · rfl
    · simp only [entrySize]
      rcases fs.get t with _ | n | _ | u <;> rfl
  have fsum : ∀ l : List Path, ((l.filter fs.isFile).map fs.size).sum = (l.map fun k => if fs.isFile k then fs.size k else 0).sum := by
    intro l
    induction l with
    | nil => rfl
    | cons k l ih =>
      rw [List.map_cons, List.sum_cons, ← ih]
      by_cases hk : fs.isFile k = true
      · rw [List.filter_cons_of_pos hk, if_pos hk]; rfl
      · rw [List.filter_cons_of_neg hk, if_neg hk]; simp
  unfold directorySize
  rw [fsum]
  induction depth generalizing p with
  | zero =>
    have := hd _ ((get_mem h).mp hp) (List.prefix_refl _)
    simp at this
  | succ depth ih =>
    have hglob : fs.glob p = fs.children p := by unfold FS.glob; rw [follow_dir hp]
    rw [walk, hglob, sum_below h]
    have loop : ∀ cs : List Path, (∀ c ∈ cs, c ∈ fs.children p) →
        ((cs.flatMap fun c => c :: (if fs.get c = some .dir then walk depth fs c else [])).map
          fun k => if fs.isFile k then fs.size k else 0).sum =
        (cs.map fun c => ((fs.filter fun e => c <+: e.1).map (entrySize fs)).sum).sum := by
      intro cs
      induction cs with
      | nil => intro _; rfl
      | cons c cs ihc =>
        intro hcs
        have hc := hcs c List.mem_cons_self
        obtain ⟨⟨m, hm⟩, -, -⟩ := children_mem.mp hc
        obtain ⟨x, hx⟩ := child_form hc
        have hpc : p <+: c := by rw [hx]; exact List.prefix_append _ _
        rw [List.flatMap_cons, List.map_append, List.sum_append, ihc (fun d hd => hcs d (List.mem_cons_of_mem _ hd)),
          List.map_cons, List.sum_cons, List.map_cons, List.sum_cons, sum_under h.once hm, size c m hm]
        congr 2
        split
        · rename_i hdir
          refine ih c hdir ?_
          intro e he hce
          have := hd e he (hpc.trans hce)
          rw [hx, List.length_append, List.length_singleton]
          omega
        · rename_i hdir
          rw [below_leaf h hdir]
          rfl
    exact loop _ (fun _ h => h)

/-- The hypotheses are met: three entries, of sizes one, two and three. -/
example : countFiles 3 sample [['a']] = .ok 3 ∧ directorySize 3 sample [['a']] = 6 := by
  constructor
  · rw [C135_count_files 3 sample [['a']] sample_tree (by decide) ?_ (by decide)]
    · exact congrArg Except.ok (by decide)
    · intro k t h
      simp only [sample, List.mem_cons, Prod.mk.injEq, reduceCtorEq, and_false, Node.link.injEq, List.not_mem_nil, or_false,
        false_or] at h
      obtain ⟨rfl, rfl⟩ := h
      decide
  · rw [C135_directory_size 3 sample [['a']] sample_tree (by decide) (by decide)]
    decide

/-- C135: a link to a directory is gone into by `count_files_recursive`, but not by `directory_size`. -/
theorem C135_link_differs :
    let fs : FS := [([], .dir), ([['a']], .dir), ([['a'], ['l']], .link [['b']]), ([['b']], .dir), ([['b'], ['f']], .file 1)]
    countFiles 9 fs [['a']] = .ok 1 ∧ directorySize 9 fs [['a']] = 0 := ⟨by rfl, by decide⟩

/-- C135: `count_files_recursive` of what is not a directory raises. -/
theorem C135_count_files_no_dir (limit : Nat) (fs : FS) (p : Path) (h : fs.isDir p = false) :
    countFiles (limit + 1) fs p = .error .osError := by
  have : fs.iterdir p = .error .osError := by
    unfold FS.iterdir
    unfold FS.isDir at h
    split
    · rename_i heq; rw [heq] at h; cases h
    · rfl
  rw [countFiles, this]
  rfl

/-! ### Asking -/

/-- C135: `get_all_subdirs` gives the directories, and links to directories, in each of the directories in turn. It raises
if one of them is no directory. -/
theorem C135_subdirs (fs : FS) (ds : List Path) :
    ((∀ d ∈ ds, fs.isDir d = true) → getAllSubdirs fs ds = .ok (ds.flatMap fun d => (fs.glob d).filter fs.isDir)) ∧
    ((∃ d ∈ ds, fs.isDir d = false) → getAllSubdirs fs ds = .error .osError) := by
  have iter : ∀ d, fs.iterdir d = if fs.isDir d then .ok (fs.glob d) else .error .osError := by
    intro d
    unfold FS.iterdir FS.isDir FS.glob
    rcases fs.follow d with _ | ⟨q, n | _ | t⟩ <;> rfl
  have loop : ∀ (ds : List Path) (acc : List Path),
      ((∀ d ∈ ds, fs.isDir d = true) → ds.foldlM (m := Except PyExc) (fun all d => do return all ++ (← fs.iterdir d).filter fs.isDir) acc =
        .ok (acc ++ ds.flatMap fun d => (fs.glob d).filter fs.isDir)) ∧
      ((∃ d ∈ ds, fs.isDir d = false) → ds.foldlM (m := Except PyExc) (fun all d => do return all ++ (← fs.iterdir d).filter fs.isDir) acc =
        .error .osError) := by
    intro ds
    induction ds with
    | nil => intro acc; exact ⟨fun _ => by simp [pure, Except.pure], fun ⟨d, hd, _⟩ => by simp at hd⟩
    | cons d ds ih =>
      intro acc
      rw [List.foldlM_cons]
      rcases hd : fs.isDir d with _ | _
      · refine ⟨fun h => ?_, fun _ => ?_⟩
        · have := h d List.mem_cons_self
          rw [hd] at this; cases this
        · rw [iter, hd]; rfl
      · have ih := ih (acc ++ (fs.glob d).filter fs.isDir)
        rw [iter, hd]
        refine ⟨fun h => ?_, fun ⟨c, hc, hcd⟩ => ?_⟩
        · have := ih.1 (fun c hc => h c (List.mem_cons_of_mem _ hc))
          simp only [if_true, bind, Except.bind, pure, Except.pure] at this ⊢
          rw [this, List.flatMap_cons, List.append_assoc]
        · have : c ∈ ds := by
            rcases List.mem_cons.mp hc with rfl | hc
            · rw [hd] at hcd; cases hcd
            · exact hc
          exact ih.2 ⟨c, this, hcd⟩
  have := loop ds []
  simpa [getAllSubdirs] using this

/-- C135: `mkdir_and_ask` for a path that exists, a file too, changes nothing and says whether the user agreed, or `yes`
was set. -/
theorem C135_mkdir_exists (limit : Nat) (fs : FS) (p : Path) (parents yes : Bool) (response : String)
    (h : fs.exists' p = true) :
    mkdirAndAsk limit fs p parents yes response =
      (fs, .ok (yes || response == "y" || response == "Y" || response == "")) := by
  unfold mkdirAndAsk
  rw [if_pos h]
  rcases yes with _ | _
  · by_cases h1 : response = "y"
    · simp [h1]
    · by_cases h2 : response = "Y"
      · simp [h2]
      · by_cases h3 : response = "" <;> simp [h1, h2, h3]
  · rfl

theorem mkdir_cases (limit : Nat) (fs : FS) (p : Path) (parents : Bool) (hp : fs.get p = none) :
    (fs.get p.dropLast = some .dir → FS.mkdir (limit + 1) fs p parents = (fs ++ [(p, .dir)], none)) ∧
    (fs.get p.dropLast ≠ some .dir → parents = false → FS.mkdir (limit + 1) fs p parents = (fs, some .osError)) := by
  constructor
  · intro h
    rw [FS.mkdir, hp]
    simp [h]
  · rintro h rfl
    rw [FS.mkdir, hp]
    simp [h]

theorem mkdir_tree (limit : Nat) (fs : FS) (p : Path) (parents : Bool) (h : Tree fs) (hroot : fs.get [] = some .dir) :
    ∃ l, FS.mkdir limit fs p parents = (fs ++ l, (FS.mkdir limit fs p parents).2) ∧ Tree (fs ++ l) ∧
      (∀ e ∈ l, e.2 = .dir ∧ e.1 <+: p) ∧
      ((FS.mkdir limit fs p parents).2 = none → (fs ++ l).get p = some .dir ∧ fs.get p = none) := by
  have add : ∀ (fs : FS) (q : Path), Tree fs → q ≠ [] → fs.get q = none → fs.get q.dropLast = some .dir →
      Tree (fs ++ [(q, .dir)]) ∧ (fs ++ [(q, .dir)] : FS).get q = some .dir := by
    intro fs q h hq0 hq hd
    have hnm : q ∉ fs.map Prod.fst := by
      intro hm
      obtain ⟨n, hn⟩ := key_mem.mp hm
      rw [(get_mem h).mpr hn] at hq
      cases hq
    have hnd : ((fs ++ [(q, Node.dir)]).map Prod.fst).Nodup := by
      rw [List.map_append, List.nodup_append]
      refine ⟨h.once, by simp, ?_⟩
      intro a ha b hb
      simp only [List.map_cons, List.map_nil, List.mem_singleton] at hb
      rintro rfl
      exact hnm (hb ▸ ha)
    refine ⟨⟨hnd, ?_⟩, ?_⟩
    · intro k hk hk0
      rw [get_mem' hnd, List.mem_append]
      rw [List.map_append, List.mem_append] at hk
      left
      rw [← get_mem h]
      rcases hk with hk | hk
      · exact h.inDir k hk hk0
      · simp only [List.map_cons, List.map_nil, List.mem_singleton] at hk
        rw [hk]; exact hd
    · rw [get_mem' hnd]; simp
  induction limit generalizing fs p parents with
  | zero => exact ⟨[], by simp [FS.mkdir], by simpa using h, by simp, by simp [FS.mkdir]⟩
  | succ limit ih =>
    rw [FS.mkdir]
    split
    · exact ⟨[], by simp, by simpa using h, by simp, by simp⟩
    · rename_i hp
      have hp : fs.get p = none := by simpa using hp
      have hp0 : p ≠ [] := by rintro rfl; rw [hroot] at hp; cases hp
      split
      · rename_i hd
        obtain ⟨h1, h2⟩ := add fs p h hp0 hp hd
        exact ⟨[(p, .dir)], rfl, h1, by simp, fun _ => ⟨h2, hp⟩⟩
      · split
        · obtain ⟨l, e1, t1, p1, s1⟩ := ih fs p.dropLast true h hroot
          rw [e1]
          rcases hr : (FS.mkdir limit fs p.dropLast true).2 with _ | e
          · simp only
            obtain ⟨g1, g2⟩ := s1 hr
            have hpn : (fs ++ l : FS).get p = none := by
              rcases hg : (fs ++ l : FS).get p with _ | n
              · rfl
              · exfalso
                rcases List.mem_append.mp ((get_mem t1).mp hg) with hm | hm
                · rw [(get_mem h).mpr hm] at hp; cases hp
                · have := (p1 _ hm).2.length_le
                  rw [List.length_dropLast] at this
                  have := List.length_pos_iff.mpr hp0
                  simp only at *
                  omega
            obtain ⟨a1, a2⟩ := add (fs ++ l) p t1 hp0 hpn g1
            refine ⟨l ++ [(p, .dir)], by simp, by simpa using a1, ?_, fun _ => ⟨by simpa using a2, hp⟩⟩
            intro e he
            rcases List.mem_append.mp he with he | he
            · exact ⟨(p1 e he).1, (p1 e he).2.trans (List.dropLast_prefix p)⟩
            · simp only [List.mem_singleton] at he
              rw [he]
              exact ⟨rfl, List.prefix_refl _⟩
          · exact ⟨l, rfl, t1, fun e he => ⟨(p1 e he).1, (p1 e he).2.trans (List.dropLast_prefix p)⟩, by simp⟩
        · exact ⟨[], by simp, by simpa using h, by simp, by simp⟩

/-- C135: for a path that does not exist `mkdir_and_ask` does not ask. It adds directories, all of them the path or above
it, and if it does not raise, the path is a directory then and the result is `True`. -/
theorem C135_mkdir_new (limit : Nat) (fs : FS) (p : Path) (parents yes : Bool) (response : String) (h : Tree fs)
    (hroot : fs.get [] = some .dir) (hp : fs.exists' p = false) :
    ∃ l, (mkdirAndAsk limit fs p parents yes response).1 = fs ++ l ∧ Tree (fs ++ l) ∧ (∀ e ∈ l, e.2 = .dir ∧ e.1 <+: p) ∧
      ((∃ e, (mkdirAndAsk limit fs p parents yes response).2 = .error e) ∨
        ((mkdirAndAsk limit fs p parents yes response).2 = .ok true ∧ (fs ++ l : FS).get p = some .dir)) := by
  obtain ⟨l, e1, t1, p1, s1⟩ := mkdir_tree limit fs p parents h hroot
  refine ⟨l, ?_, t1, p1, ?_⟩
  · unfold mkdirAndAsk
    rw [hp, e1]
    rcases hr : (FS.mkdir limit fs p parents).2 with _ | e <;> simp
  · unfold mkdirAndAsk
    rw [hp, e1]
    rcases hr : (FS.mkdir limit fs p parents).2 with _ | e
    · exact .inr ⟨rfl, (s1 hr).1⟩
    · exact .inl ⟨e, rfl⟩

/-- C135: a directory in a directory that exists is made. In one that does not exist, it is made only with `parents`. -/
theorem C135_mkdir_made (limit : Nat) (fs : FS) (p : Path) (parents yes : Bool) (response : String) (hp : fs.get p = none) :
    (fs.get p.dropLast = some .dir → mkdirAndAsk (limit + 1) fs p parents yes response = (fs ++ [(p, .dir)], .ok true)) ∧
    (fs.get p.dropLast ≠ some .dir → parents = false →
      mkdirAndAsk (limit + 1) fs p parents yes response = (fs, .error .osError)) := by
  have he : fs.exists' p = false := by unfold FS.exists' FS.follow; rw [hp]; rfl
  obtain ⟨h1, h2⟩ := mkdir_cases limit fs p parents hp
  constructor
  · intro h
    unfold mkdirAndAsk
    rw [he, h1 h]
    rfl
  · intro h h'
    unfold mkdirAndAsk
    rw [he, h2 h h']
    rfl

theorem mkdir_parents (fs : FS) (hroot : fs.get [] = some .dir) : ∀ (limit : Nat) (p : Path), p.length < limit →
    (∀ q, q <+: p → fs.get q = none ∨ fs.get q = some .dir) → fs.get p = none → (FS.mkdir limit fs p true).2 = none := by
  intro limit
  induction limit with
  | zero => intro p h; omega
  | succ limit ih =>
    intro p hl hq hp
    have hne : p ≠ [] := by rintro rfl; rw [hroot] at hp; cases hp
    rw [FS.mkdir, hp]
    rcases hq p.dropLast (List.dropLast_prefix p) with h | h
    · have h1 := ih p.dropLast (by rw [List.length_dropLast]; have := List.length_pos_iff.mpr hne; omega)
        (fun q hq' => hq q (hq'.trans (List.dropLast_prefix p))) h
      rw [h]
      simp only [Option.isSome_none, Bool.false_eq_true, if_false, reduceCtorEq, true_and, hne, ne_eq, not_false_eq_true,
        if_true]
      rcases hr : FS.mkdir limit fs p.dropLast true with ⟨fs', e⟩
      rw [hr] at h1
      simp only at h1
      subst h1
      rfl
    · simp [h]

/-- C135: with `parents`, a path above which there is nothing but directories is made with all that is missing above it. -/
theorem C135_mkdir_parents (limit : Nat) (fs : FS) (p : Path) (yes : Bool) (response : String) (h : Tree fs)
    (hroot : fs.get [] = some .dir) (hl : p.length < limit) (hq : ∀ q, q <+: p → fs.get q = none ∨ fs.get q = some .dir)
    (hp : fs.get p = none) :
    ∃ l, mkdirAndAsk limit fs p true yes response = (fs ++ l, .ok true) ∧ Tree (fs ++ l) ∧
      (∀ e ∈ l, e.2 = .dir ∧ e.1 <+: p) ∧ (fs ++ l : FS).get p = some .dir := by
  have he : fs.exists' p = false := by unfold FS.exists' FS.follow; rw [hp]; rfl
  obtain ⟨l, e1, t1, p1, s1⟩ := mkdir_tree limit fs p true h hroot
  have h2 := mkdir_parents fs hroot limit p hl hq hp
  refine ⟨l, ?_, t1, p1, (s1 h2).1⟩
  unfold mkdirAndAsk
  rw [he, e1, h2]
  rfl

/-- With `parents`, all missing directories are made. -/
example : mkdirAndAsk 9 [([], .dir)] [['a'], ['b'], ['c']] true false "" =
    ([([], .dir), ([['a']], .dir), ([['a'], ['b']], .dir), ([['a'], ['b'], ['c']], .dir)], .ok true) := by rfl

/-- C135: without agreement nothing is removed; with it the directories are removed in turn, but from a generator or
iterator none is. -/
theorem C135_ask (limit : Nat) (fs : FS) (ds : List Path) (once : Bool) (k : String) :
    (k ≠ "" → k ≠ "y" → k ≠ "Y" → askToRemove limit fs ds once k = (fs, none)) ∧
    (k = "" ∨ k = "y" ∨ k = "Y" → askToRemove limit fs ds false k = each (rmTree limit) ds fs) ∧
    askToRemove limit fs ds true k = (fs, none) := by
  refine ⟨fun h1 h2 h3 => ?_, fun h => ?_, ?_⟩
  · unfold askToRemove; simp [h1, h2, h3]
  · unfold askToRemove; simp [h]
  · unfold askToRemove; simp [each]

/-! ### Names -/

theorem split_plain (base : List Char) (h : '.' ∉ base) (r : List Char) (hr : r = [] ∨ r.head? = some '.') :
    split (base ++ r) = base :: (match r with | [] => [] | _ :: r => split r) := by
  induction base with
  | nil =>
    rcases r with _ | ⟨c, r⟩
    · rfl
    · simp only [List.head?_cons, Option.some.injEq, reduceCtorEq, false_or] at hr
      subst hr
      simp [split]
  | cons c base ih =>
    simp only [List.mem_cons, not_or] at h
    rw [List.cons_append, split, if_neg (Ne.symm h.1), ih h.2]

theorem split_join (s : List Char) : ((split s).map fun w => '.' :: w).flatten = '.' :: s := by
  induction s with
  | nil => rfl
  | cons c s ih =>
    rw [split]
    split
    · rename_i h
      subst h
      rw [List.map_cons, List.flatten_cons, ih]
      rfl
    · split
      · rename_i h
        rw [h] at ih
        simp at ih
      · rename_i h
        rw [h, List.map_cons, List.flatten_cons, List.cons_append, List.cons.injEq] at ih
        rw [List.map_cons, List.flatten_cons, List.cons_append, List.cons_append, ih.2]

theorem takeWhile_short (a b : List Char) : ((a ++ '.' :: b).takeWhile (· ≠ '.')).length ≤ a.length := by
  induction a with
  | nil => simp
  | cons c a ih =>
    rw [List.cons_append, List.takeWhile_cons]
    split
    · simpa using ih
    · simp

theorem takeWhile_exact (a b : List Char) (ha : '.' ∉ a) : ((a ++ '.' :: b).takeWhile (· ≠ '.')) = a := by
  induction a with
  | nil => simp
  | cons c a ih =>
    rw [List.mem_cons, not_or] at ha
    rw [List.cons_append, List.takeWhile_cons, if_pos (by simpa using Ne.symm ha.1), ih ha.2]

/-- C135: the name without its extension: what begins with the last dot is left out, unless that is the first or the last
character. -/
theorem C135_stem (base ext : Name) (hd : '.' ∉ ext) :
    stem (base ++ '.' :: ext) = (if base = [] ∨ ext = [] then base ++ '.' :: ext else base) ∧ stem ext = ext := by
  constructor
  · have e1 : (base ++ '.' :: ext).reverse = ext.reverse ++ '.' :: base.reverse := by simp
    have hlen : (base ++ '.' :: ext).length - 1 - ext.length = base.length := by
      rw [List.length_append, List.length_cons]; omega
    unfold stem
    rw [if_pos (by simp), e1, takeWhile_exact _ _ (by simpa using hd), List.length_reverse, hlen, List.take_left]
    simp only
    by_cases hb : base = []
    · simp [hb]
    · have hb' := List.length_pos_iff.mpr hb
      by_cases hx : ext = []
      · simp [hb, hx]
      · have hx' := List.length_pos_iff.mpr hx
        rw [if_pos (by rw [List.length_append, List.length_cons]; omega), if_neg (by simp [hb, hx])]
  · unfold stem
    rw [if_neg hd]

example : stem "a.tar.gz".toList = "a.tar".toList ∧ stem ".rc".toList = ".rc".toList ∧ stem "a.".toList = "a.".toList := by
  decide

/-- C135: the numbered names of a name that does not begin or end with a dot: the number goes before the first dot. -/
theorem C135_candidate (base ext : Name) (n : Nat) (hb : base ≠ []) (hbd : '.' ∉ base)
    (he : ext = [] ∨ (ext.head? = some '.' ∧ ext.getLast? ≠ some '.')) :
    candidate (base ++ ext) n = base ++ ['_', 'v'] ++ Nat.toDigits 10 n ++ ext := by
  obtain ⟨b0, bs, rfl⟩ := List.exists_cons_of_ne_nil hb
  have hb0 : b0 ≠ '.' := by rintro rfl; simp at hbd
  have hstem : ∃ r, stem (b0 :: bs ++ ext) = b0 :: bs ++ r ∧ (r = [] ∨ r.head? = some '.') := by
    rcases he with rfl | ⟨he, -⟩
    · refine ⟨[], ?_, .inl rfl⟩
      unfold stem
      rw [List.append_nil, if_neg hbd]
    · obtain ⟨e, rfl⟩ : ∃ e, ext = '.' :: e := by
        rcases ext with _ | ⟨c, e⟩
        · cases he
        · simp only [List.head?_cons, Option.some.injEq] at he
          exact ⟨e, by rw [he]⟩
      have hlen := takeWhile_short e.reverse (b0 :: bs).reverse
      have e1 : (b0 :: bs ++ '.' :: e).reverse = e.reverse ++ '.' :: (b0 :: bs).reverse := by simp
      unfold stem
      rw [if_pos (by simp), e1]
      simp only
      generalize (List.takeWhile (fun x => decide (x ≠ '.')) (e.reverse ++ '.' :: (b0 :: bs).reverse)).length = w at hlen ⊢
      rw [List.length_reverse] at hlen
      obtain ⟨k, hk⟩ : ∃ k, (b0 :: bs ++ '.' :: e).length - 1 - w = (b0 :: bs).length + k :=
        ⟨e.length - w, by rw [List.length_append, List.length_cons (as := e)]; omega⟩
      rw [hk, List.take_length_add_append]
      split
      · refine ⟨_, rfl, ?_⟩
        rcases k with _ | k
        · exact .inl rfl
        · exact .inr rfl
      · exact ⟨'.' :: e, rfl, .inr rfl⟩
  obtain ⟨r, hs, hr⟩ := hstem
  have hhead : (split (stem (b0 :: bs ++ ext))).headD [] = b0 :: bs := by
    rw [hs, split_plain _ hbd r hr]
    rfl
  have hsuf : (suffixes (b0 :: bs ++ ext)).flatten = ext := by
    have hdrop : (b0 :: bs ++ ext).dropWhile (· = '.') = b0 :: bs ++ ext := by
      rw [List.cons_append, List.dropWhile_cons, if_neg (by simpa using hb0)]
    have hlast : (b0 :: bs ++ ext).getLast? ≠ some '.' := by
      rcases he with rfl | ⟨he, hl⟩
      · rw [List.append_nil]
        intro h
        exact hbd (List.mem_of_getLast? h)
      · rcases ext with _ | ⟨c, e⟩
        · cases he
        · rw [List.getLast?_append]
          intro h
          apply hl
          rcases hg : (c :: e).getLast? with _ | x
          · simp at hg
          · rw [hg] at h; exact h
    unfold suffixes
    rw [if_neg hlast, hdrop]
    rcases he with rfl | ⟨he, -⟩
    · rw [split_plain _ hbd [] (.inl rfl)]
      rfl
    · rcases ext with _ | ⟨c, e⟩
      · cases he
      · simp only [List.head?_cons, Option.some.injEq] at he
        subst he
        rw [split_plain _ hbd _ (.inr rfl)]
        exact split_join e
  unfold candidate
  rw [hhead, hsuf]

/-- `results.tar.gz` and `results` -/
example : candidate "results.tar.gz".toList 12 = "results_v12.tar.gz".toList ∧ candidate "results".toList 1 = "results_v1".toList := by
  decide

/-- C135: the name of a hidden file is lost, and so is the last dot. -/
theorem C135_candidate_hidden_wrong : candidate ".bashrc".toList 1 = "_v1".toList ∧
    candidate ".config.json".toList 1 = "_v1.json".toList ∧ candidate "a.".toList 1 = "a_v1".toList := by
  decide

theorem candidate_inj (name : Name) (m n : Nat) (h : candidate name m = candidate name n) : m = n := by
  unfold candidate at h
  simp only [List.append_assoc, List.append_cancel_left_eq] at h
  have h := List.append_cancel_right h
  have := congrArg (fun l => Nat.ofDigitChars 10 l 0) h
  simpa [Nat.ofDigitChars_toDigits] using this

theorem search_spec (rounds : Nat) (fs : FS) (parent : Path) (name : Name) (n : Nat) (p : Path)
    (h : searchPath rounds fs parent name (parent ++ [candidate name n]) (n + 1) = some p) :
    ∃ m, n ≤ m ∧ p = parent ++ [candidate name m] ∧ fs.exists' p = false ∧
      ∀ i, n ≤ i → i < m → fs.exists' (parent ++ [candidate name i]) = true := by
  induction rounds generalizing n with
  | zero => cases h
  | succ rounds ih =>
    rw [searchPath] at h
    split at h
    · rename_i he
      cases h
      exact ⟨n, Nat.le_refl _, rfl, by simpa using he, fun i h1 h2 => by omega⟩
    · rename_i he
      obtain ⟨m, h1, h2, h3, h4⟩ := ih (n + 1) h
      refine ⟨m, by omega, h2, h3, fun i hi hm => ?_⟩
      by_cases h : i = n
      · rw [h]; simpa using he
      · exact h4 i (by omega) hm

/-- C135: the path `no_overwrite_path` gives does not exist. It is the path given if that does not exist, and otherwise
the one in the same directory with the first number for which it does not. -/
theorem C135_no_overwrite (rounds : Nat) (fs : FS) (parent : Path) (name : Name) (p : Path)
    (h : noOverwritePath rounds fs parent name = some p) :
    fs.exists' p = false ∧
    (fs.exists' (parent ++ [name]) = false → p = parent ++ [name]) ∧
    (fs.exists' (parent ++ [name]) = true → ∃ m, 1 ≤ m ∧ p = parent ++ [candidate name m] ∧
      ∀ i, 1 ≤ i → i < m → fs.exists' (parent ++ [candidate name i]) = true) := by
  unfold noOverwritePath at h
  rcases rounds with _ | rounds
  · cases h
  · rw [searchPath] at h
    split at h
    · rename_i he
      have he : fs.exists' (parent ++ [name]) = false := by simpa using he
      cases h
      exact ⟨he, fun _ => rfl, fun h => (by rw [he] at h; cases h)⟩
    · rename_i he
      have he : fs.exists' (parent ++ [name]) = true := by simpa using he
      obtain ⟨m, h1, h2, h3, h4⟩ := search_spec rounds fs parent name 1 p h
      exact ⟨h3, fun h => (by rw [he] at h; cases h), fun _ => ⟨m, h1, h2, h4⟩⟩

theorem exists_key {fs : FS} {p : Path} (h : fs.exists' p = true) : p ∈ fs.map Prod.fst := by
  unfold FS.exists' FS.follow at h
  rcases hg : fs.get p with _ | n
  · rw [hg] at h; cases h
  · unfold FS.get at hg
    rw [Option.map_eq_some_iff] at hg
    obtain ⟨e, he, -⟩ := hg
    have h1 := List.mem_of_find?_eq_some he
    have h2 := List.find?_some he
    rw [decide_eq_true_eq] at h2
    rw [← h2]
    exact List.mem_map_of_mem h1

/-- C135: `no_overwrite_path` ends: more rounds than there are entries are never needed. -/
theorem C135_no_overwrite_ends (rounds : Nat) (fs : FS) (parent : Path) (name : Name) (hr : fs.length + 1 < rounds) :
    (noOverwritePath rounds fs parent name).isSome = true := by
  have loop : ∀ (rounds n : Nat), searchPath rounds fs parent name (parent ++ [candidate name n]) (n + 1) = none →
      ∀ i, n ≤ i → i < n + rounds → fs.exists' (parent ++ [candidate name i]) = true := by
    intro rounds
    induction rounds with
    | zero => intro n _ i h1 h2; omega
    | succ rounds ih =>
      intro n h i h1 h2
      rw [searchPath] at h
      split at h
      · cases h
      · rename_i he
        by_cases hi : i = n
        · rw [hi]; simpa using he
        · exact ih (n + 1) h i (by omega) (by omega)
  rcases rounds with _ | rounds
  · omega
  · unfold noOverwritePath
    rw [searchPath]
    split
    · rfl
    · rcases hs : searchPath rounds fs parent name (parent ++ [candidate name 1]) (1 + 1) with _ | p
      · exfalso
        have hall := loop rounds 1 hs
        have hnd : ((List.range rounds).map fun i => parent ++ [candidate name (i + 1)]).Nodup := by
          rw [List.nodup_iff_pairwise_ne, List.pairwise_map]
          refine List.nodup_range.imp ?_
          intro a b hab he
          simp only [List.append_cancel_left_eq, List.cons.injEq, and_true] at he
          have := candidate_inj name _ _ he
          omega
        have hsub : (List.range rounds).map (fun i => parent ++ [candidate name (i + 1)]) ⊆ fs.map Prod.fst := by
          intro p hp
          obtain ⟨i, hi, rfl⟩ := List.mem_map.mp hp
          exact exists_key (hall (i + 1) (by omega) (by have := List.mem_range.mp hi; omega))
        have := hnd.length_le_of_subset hsub
        simp at this
        omega
      · rfl

/-- C135: a link that leads nowhere is not seen: the path given can be an entry. -/
theorem C135_no_overwrite_link_wrong :
    let fs : FS := [([], .dir), ([['a']], .link [['b']])]
    noOverwritePath 5 fs [] ['a'] = some [['a']] ∧ [['a']] ∈ fs.map Prod.fst := by decide

/-- The names `a` and `a_v1` are taken. -/
example : noOverwritePath 5 [([], .dir), (["a.txt".toList], .file 0), (["a_v1.txt".toList], .file 0)] [] "a.txt".toList =
    some ["a_v2.txt".toList] := by decide

end Verif.Filesystem
