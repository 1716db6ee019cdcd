import Verif.Model.SenderState
import Verif.Props.SecureSender
import Verif.Props.SenderSetup

/-!
# C172: senders changed after construction; C173: connections of `SecureSender`
-/

namespace Verif.Props
open Verif Verif.Fs Verif.Sender Verif.Secure

/-- A call that changes the directory to one that is there. -/
def Moves (cwd : Path) (fs : FS) (x : Call) (d : Text) : Prop :=
  x = .changeDirectory d ∧ (resolve cwd d = [] ∨ Fs.get fs (resolve cwd d) = some .dir)

theorem isDir_iff (fs : FS) (p : Path) : isDir fs p = true ↔ p = [] ∨ Fs.get fs p = some .dir := by
  unfold isDir
  simp

theorem lookup_setProp (d : Props) (k v k' : String) : (setProp d k v).lookup k' = if k' = k then some v else d.lookup k' := by
  induction d with
  | nil =>
    by_cases h : k' = k
    · subst h; simp [setProp]
    · have : (k' == k) = false := by simpa using h
      simp [setProp, List.lookup_cons, this, h]
  | cons p d ih =>
    obtain ⟨a, b⟩ := p
    unfold setProp
    by_cases ha : a = k
    · subst ha
      rw [if_pos rfl]
      by_cases h : k' = a
      · subst h; simp
      · have : (k' == a) = false := by simpa using h
        simp [List.lookup_cons, this, h]
    · rw [if_neg ha, List.lookup_cons, List.lookup_cons, ih]
      by_cases h : k' = a
      · subst h; simp [ha]
      · have : (k' == a) = false := by simpa using h
        simp only [this]

theorem keys_setProp (d : Props) (k v k' : String) (h : k' ∈ d.map Prod.fst) : k' ∈ (setProp d k v).map Prod.fst := by
  induction d with
  | nil => simp at h
  | cons p d ih =>
    obtain ⟨a, b⟩ := p
    unfold setProp
    split_ifs with ha
    · subst ha; simpa using h
    · rw [List.map_cons, List.mem_cons] at h ⊢
      exact h.imp id ih

theorem calls_append (cwd : Path) (fs : FS) (xs ys : List Call) : ∀ h o,
    calls cwd fs h o (xs ++ ys) = calls cwd fs (calls cwd fs h o xs).1 (calls cwd fs h o xs).2 ys := by
  induction xs with
  | nil => intro h o; rfl
  | cons x xs ih => intro h o; exact ih _ _

theorem calls_fixed (cwd : Path) (fs : FS) (xs : List Call) : ∀ h o,
    (calls cwd fs h o xs).2.files = o.files ∧ (calls cwd fs h o xs).2.props = o.props ∧
    (∀ i, i ≠ o.props → (calls cwd fs h o xs).1 i = h i) ∧
    (∀ k ∈ (h o.props).map Prod.fst, k ∈ ((calls cwd fs h o xs).1 o.props).map Prod.fst) ∧
    ((∀ x ∈ xs, ∀ d, ¬ Moves cwd fs x d) → (calls cwd fs h o xs).2.dir = o.dir) ∧
    ∀ k, (∀ x ∈ xs, ∀ v, x ≠ .addProperty k v) → ((calls cwd fs h o xs).1 o.props).lookup k = (h o.props).lookup k := by
  induction xs with
  | nil => intro h o; exact ⟨rfl, rfl, fun _ _ => rfl, fun _ hk => hk, fun _ => rfl, fun _ _ => rfl⟩
  | cons x xs ih =>
    intro h o
    unfold calls
    cases x with
    | addProperty k v =>
      obtain ⟨h1, h2, h3, h4, h5, h6⟩ := ih (Function.update h o.props (setProp (h o.props) k v)) o
      refine ⟨h1, h2, ?_, ?_, ?_, ?_⟩
      · intro i hi
        refine (h3 i hi).trans ?_
        rw [Function.update_of_ne hi]
      · intro k' hk'
        refine h4 k' ?_
        rw [Function.update_self]
        exact keys_setProp _ _ _ _ hk'
      · exact fun hx => h5 fun y hy => hx y (List.mem_cons_of_mem _ hy)
      · intro k' hk'
        refine (h6 k' fun y hy => hk' y (List.mem_cons_of_mem _ hy)).trans ?_
        rw [Function.update_self, lookup_setProp, if_neg]
        rintro rfl
        exact hk' _ List.mem_cons_self v rfl
    | addFiles ns =>
      obtain ⟨h1, h2, h3, h4, h5, h6⟩ := ih h o
      exact ⟨h1, h2, h3, h4, fun hx => h5 fun y hy => hx y (List.mem_cons_of_mem _ hy),
        fun k hk => h6 k fun y hy => hk y (List.mem_cons_of_mem _ hy)⟩
    | changeDirectory d =>
      by_cases hd : isDir fs (resolve cwd d) = true
      · obtain ⟨h1, h2, h3, h4, h5, h6⟩ := ih h { o with dir := some d }
        simp only [call, hd, if_true]
        refine ⟨h1, h2, h3, h4, fun hx => ?_, fun k hk => h6 k fun y hy => hk y (List.mem_cons_of_mem _ hy)⟩
        exact absurd ⟨rfl, (isDir_iff _ _).mp hd⟩ (hx _ List.mem_cons_self d)
      · obtain ⟨h1, h2, h3, h4, h5, h6⟩ := ih h o
        simp only [call, hd]
        exact ⟨h1, h2, h3, h4, fun hx => h5 fun y hy => hx y (List.mem_cons_of_mem _ hy),
          fun k hk => h6 k fun y hy => hk y (List.mem_cons_of_mem _ hy)⟩

/-- **C172** (partial). After any history of calls the directory of a sender is the last one it was changed to that was there, and else the one of the
constructor; each property has the value that was last set, and else that of the constructor; files and the properties of senders with other
dictionaries are as before. What is missing: files cannot be added, see below. -/
theorem C172_history_partial (cwd : Path) (fs : FS) (h : Heap) (o : Obj) (xs : List Call) :
    (calls cwd fs h o xs).2.files = o.files ∧
    (∀ i, i ≠ o.props → (calls cwd fs h o xs).1 i = h i) ∧
    (∀ pre post x d, xs = pre ++ x :: post → Moves cwd fs x d → (∀ y ∈ post, ∀ e, ¬ Moves cwd fs y e) →
      (calls cwd fs h o xs).2.dir = some d) ∧
    ((∀ x ∈ xs, ∀ d, ¬ Moves cwd fs x d) → (calls cwd fs h o xs).2.dir = o.dir) ∧
    (∀ pre post k v, xs = pre ++ .addProperty k v :: post → (∀ y ∈ post, ∀ w, y ≠ .addProperty k w) →
      ((calls cwd fs h o xs).1 o.props).lookup k = some v) ∧
    ∀ k, (∀ x ∈ xs, ∀ v, x ≠ .addProperty k v) → ((calls cwd fs h o xs).1 o.props).lookup k = (h o.props).lookup k := by
  obtain ⟨h1, h2, h3, h4, h5, h6⟩ := calls_fixed cwd fs xs h o
  refine ⟨h1, h3, ?_, h5, ?_, h6⟩
  · rintro pre post x d rfl ⟨rfl, hd⟩ hpost
    rw [calls_append]
    unfold calls
    have hd' := (isDir_iff fs (resolve cwd d)).mpr hd
    simp only [call, hd', if_true]
    exact (calls_fixed cwd fs post _ _).2.2.2.2.1 hpost
  · rintro pre post k v rfl hpost
    rw [calls_append]
    obtain ⟨g1, g2, g3, g4, g5, g6⟩ := calls_fixed cwd fs pre h o
    generalize calls cwd fs h o pre = s at *
    obtain ⟨h', o'⟩ := s
    simp only at g2
    unfold calls
    simp only [call]
    have := (calls_fixed cwd fs post (Function.update h' o'.props (setProp (h' o'.props) k v)) o').2.2.2.2.2 k hpost
    rw [g2] at this ⊢
    rw [this, Function.update_self, lookup_setProp, if_pos rfl]

/-- **C172**: the sender is then like one that is constructed with that directory and these properties. -/
theorem C172_like_new (c : Class) (cwd : Path) (fs : FS) (h : Heap) (p : ℕ) (files : FilesArg) (dir : Option Text) (o : Obj) (xs : List Call)
    (ho : newObj c cwd fs h p files dir = .ok o) :
    newObj c cwd fs (calls cwd fs h o xs).1 p files (calls cwd fs h o xs).2.dir = .ok (calls cwd fs h o xs).2 := by
  have hnew : ∀ h dir, (∃ o, newObj c cwd fs h p files dir = .ok o) ↔ construct c cwd fs (some ((h p).map Prod.fst)) files dir = .ok () := by
    intro h dir
    unfold newObj
    cases construct c cwd fs (some ((h p).map Prod.fst)) files dir with
    | error e => simp
    | ok u => simp
  have ho' : o = ⟨p, filesOf files, dir⟩ := by
    unfold newObj at ho
    cases hc : construct c cwd fs (some ((h p).map Prod.fst)) files dir with
    | error e => rw [hc] at ho; cases ho
    | ok u => rw [hc] at ho; cases ho; rfl
  have hok := (hnew h dir).mp ⟨o, ho⟩
  rw [(C40_validation_partial c cwd fs _ files dir).1] at hok
  obtain ⟨⟨ps, hps, hreq⟩, hf, hd⟩ := hok
  cases hps
  obtain ⟨h1, h2, h3, h4, h5, h6⟩ := calls_fixed cwd fs xs h o
  have hp : o.props = p := by rw [ho']
  have hdir : ∀ d, (calls cwd fs h o xs).2.dir = some d → resolve cwd d = [] ∨ Fs.get fs (resolve cwd d) = some .dir := by
    have hod : ∀ d, o.dir = some d → resolve cwd d = [] ∨ Fs.get fs (resolve cwd d) = some .dir := by
      rw [ho']; exact hd
    clear h1 h2 h3 h4 h5 h6 hp ho' ho hreq hnew hf
    induction xs generalizing h o with
    | nil => exact hod
    | cons x xs ih =>
      simp only [calls]
      refine ih _ _ ?_
      cases x with
      | addProperty k v => exact hod
      | addFiles ns => exact hod
      | changeDirectory d =>
        by_cases hd' : isDir fs (resolve cwd d) = true
        · simp only [call, hd', if_true]
          intro e he
          cases he
          exact (isDir_iff _ _).mp hd'
        · simp only [call, hd']
          exact hod
  have hok' : construct c cwd fs (some (((calls cwd fs h o xs).1 p).map Prod.fst)) files (calls cwd fs h o xs).2.dir = .ok () := by
    rw [(C40_validation_partial c cwd fs _ files _).1]
    refine ⟨⟨_, rfl, fun q hq => ?_⟩, hf, hdir⟩
    have := h4 q (by rw [hp]; exact hreq q hq)
    rwa [hp] at this
  unfold newObj
  rw [hok']
  simp only
  congr 1
  have e1 : (calls cwd fs h o xs).2.files = filesOf files := by rw [h1, ho']
  have e2 : (calls cwd fs h o xs).2.props = p := by rw [h2, hp]
  generalize (calls cwd fs h o xs).2 = s at *
  cases s
  simp only at e1 e2
  rw [e1, e2]

/-- **C172** is violated for files: adding files, even none, raises `NameError` and adds nothing. -/
theorem C172_files_violated (cwd : Path) (fs : FS) (h : Heap) (o : Obj) (names : List Text) :
    call cwd fs h o (.addFiles names) = ((h, o), .error .nameError) := rfl

/-- **C172** is violated for directories that are not there: `NameError`, and not `FileNotFoundError`. -/
theorem C172_directory_violated (cwd : Path) (fs : FS) (h : Heap) (o : Obj) (d : Text)
    (hd : ¬ (resolve cwd d = [] ∨ Fs.get fs (resolve cwd d) = some .dir)) :
    call cwd fs h o (.changeDirectory d) = ((h, o), .error .nameError) := by
  rw [← isDir_iff] at hd
  simp [call, hd]

/-- **C172** is violated for two senders that are constructed with one dictionary: a property added to one is added to the other. -/
theorem C172_shared_violated (c c' : Class) (cwd : Path) (fs : FS) (h : Heap) (p : ℕ) (files files' : FilesArg) (dir dir' : Option Text) (o o' : Obj)
    (ho : newObj c cwd fs h p files dir = .ok o) (ho' : newObj c' cwd fs h p files' dir' = .ok o') (k v : String) :
    ((call cwd fs h o (.addProperty k v)).1.1 o'.props).lookup k = some v := by
  have hp : ∀ c h files dir o, newObj c cwd fs h p files dir = .ok o → o.props = p := by
    intro c h files dir o ho
    unfold newObj at ho
    split at ho
    · cases ho
    · cases ho; rfl
  simp only [call]
  rw [hp _ _ _ _ _ ho, hp _ _ _ _ _ ho', Function.update_self, lookup_setProp, if_pos rfl]

/-- A sender that is constructed, given a property, and moved to another directory. -/
example : ∃ o, newObj .copySender [] [(["a".toList], .dir), (["b".toList], .dir)] (fun _ => [("remote_directory", "out")]) 0 .absent (some "/a".toList) = .ok o ∧
    (calls [] [(["a".toList], .dir), (["b".toList], .dir)] (fun _ => [("remote_directory", "out")]) o
      [.addProperty "x" "1", .changeDirectory "/b".toList, .changeDirectory "/c".toList, .addFiles []]).2.dir = some "/b".toList :=
  ⟨⟨0, [], some "/a".toList⟩, by rfl, by decide +kernel⟩

/-! ### C173 -/

/-- **C173** (partial). The connection is made to the remote host with the key file of the properties, as `remote_user` if there is one and else as the
user of the process. A `send` that succeeds closes its connection. Without a connection nothing is done. What is missing: see below. -/
theorem C173_connection_partial (env : Env) (m : Machine) (cwd : Path) (loc : FS) (c : Config) (fs : FS) (n : ℕ) :
    (∀ user props host key, props.lookup "remote_host" = some host → props.lookup "private_key" = some key →
      (∀ u, props.lookup "remote_user" = some u → connectArgs user props = some (host, u, key)) ∧
      (props.lookup "remote_user" = none → connectArgs user props = some (host, user, key))) ∧
    ((sendSession env m cwd loc c true fs).2.out = .ok n → (sendSession env m cwd loc c true fs).1 = [.opened, .closed]) ∧
    sendSession env m cwd loc c true fs = ((sendSession env m cwd loc c true fs).1, Secure.send env m cwd loc c fs) ∧
    (sendSession env m cwd loc c false fs).1 = [] ∧ (sendSession env m cwd loc c false fs).2.fs = fs ∧
    ∀ k, (sendSession env m cwd loc c false fs).2.out ≠ .ok k := by
  refine ⟨?_, ?_, ?_, rfl, rfl, fun k => by simp [sendSession, fail]⟩
  · intro user props host key h1 h2
    unfold connectArgs
    rw [h1, h2]
    exact ⟨fun u hu => by rw [hu]; rfl, fun hn => by rw [hn]; rfl⟩
  · unfold sendSession
    simp only [Bool.not_true, Bool.false_eq_true, if_false]
    intro h
    split at h
    · simp
    · rename_i hr; rw [hr] at h; cases h
  · unfold sendSession
    simp only [Bool.not_true, Bool.false_eq_true, if_false]
    split <;> rfl

/-- **C173** is violated by every `send` that fails after the connection is made: it stays open. -/
theorem C173_send_violated (env : Env) (m : Machine) (cwd : Path) (loc : FS) (c : Config) (fs : FS)
    (h : ∀ n, (Secure.send env m cwd loc c fs).out ≠ .ok n) : (sendSession env m cwd loc c true fs).1 = [.opened] := by
  unfold sendSession
  simp only [Bool.not_true, Bool.false_eq_true, if_false]
  split
  · rename_i n hn; exact absurd hn (h n)
  · rfl

/-- **C173** is violated by `cancel`: `n` calls leave `n` connections open. -/
theorem C173_cancel_violated (m : Machine) (c : Config) (content : Option Text) (n : ℕ) : ∀ fs,
    (cancels m c content n fs).1.count .opened = n ∧ (cancels m c content n fs).1.count .closed = 0 := by
  induction n with
  | zero => intro fs; exact ⟨rfl, rfl⟩
  | succ n ih =>
    intro fs
    unfold cancels
    simp only [cancelSession, Bool.not_true, Bool.false_eq_true, if_false, List.count_append]
    obtain ⟨h1, h2⟩ := ih (cancel m c content fs).fs
    rw [h1, h2]
    refine ⟨?_, by decide⟩
    rw [show List.count ConnEvent.opened [.opened] = 1 by decide]
    omega

/-- The example of `SecureSender` sends three files and closes; on a machine that refuses everything it stays open. -/
example : (sendSession exEnv (unixMachine true) [] secureLocal secureConfig true []).1 = [.opened, .closed] ∧
    (sendSession exEnv ⟨fun fs _ => (fs, 1), fun fs _ _ => fail fs⟩ [] secureLocal secureConfig true []).1 = [.opened] := by
  constructor <;> decide +kernel

end Verif.Props
