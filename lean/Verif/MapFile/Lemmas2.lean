import Verif.MapFile.Lemmas
set_option linter.unusedSectionVars false
set_option linter.unusedSimpArgs false
set_option linter.unusedVariables false
namespace Verif.MapFile
open Verif Spec

variable {φ ν ι π : Type} [DecidableEq φ] [DecidableEq ν]
variable {e : Env φ ν ι π} {w : World φ ν ι π} {st : St φ ν ι π} {n : ν} {i : ι}

/-- The images in use after loading the maps of a list of sources. -/
def loaded (e : Env φ ν ι π) (r : Bool) (l : List ν) (w : World φ ν ι π) : World φ ν ι π :=
  if r then { w with img := fun m => if m ∈ l then some (e.own m) else w.img m } else w.touch e l

/-- The world after the maps in use of a list of sources are written. -/
def stored (f : φ) (l : List ν) (w : World φ ν ι π) : World φ ν ι π :=
  w.write f { w.content f false with map := fun n => if n ∈ l then w.img n else (w.content f false).map n }

theorem loaded_img (r : Bool) (l : List ν) (hn : n ∈ l) : (loaded e r l w).img n = some (if r then e.own n else w.image e n) := by
  unfold loaded
  cases r <;> simp [World.touch, hn]

theorem made_holds : Holds st.files n (e.own n) (made e n) := ⟨Or.inl rfl, fun h => by cases h⟩

theorem load_ok (hp : e.computePoint = true) (h : Rel w st) (r : Bool) :
    ∃ st', load e st n r = .ok st' ∧ Rel (loaded e r [n] w) st' := by
  unfold load
  rw [if_neg (by rw [hp]; simp)]
  cases r with
  | true =>
    refine ⟨_, rfl, ?_⟩
    have := put_rel h (made_holds (e := e) (st := st) (n := n))
    have e1 : loaded e true [n] w = { w with img := fun m => if m = n then some (e.own n) else w.img m } := by
      unfold loaded
      simp only [if_true, List.mem_singleton]
      congr 1
      funext m
      by_cases h : m = n <;> simp [h]
    rw [e1]; exact this
  | false =>
    obtain ⟨x, h1, h2⟩ := getMap_ok (n := n) hp h
    simp only [Bool.false_eq_true, if_false, h1, Res.bind_ok]
    refine ⟨_, rfl, ?_⟩
    have := put_rel h h2
    rw [← touch_one] at this
    exact this

/-- The world after the maps of a list of sources are written, if they are to be. -/
def done (s : Bool) (l : List ν) (w : World φ ν ι π) : World φ ν ι π :=
  match w.cur with
  | none => w
  | some f => if s = true ∧ l ≠ [] then stored f l w else w

theorem loaded_cur (r : Bool) (l : List ν) : (loaded e r l w).cur = w.cur := by
  unfold loaded; cases r <;> rfl

theorem loaded_files (r : Bool) (l : List ν) : (loaded e r l w).files = w.files := by
  unfold loaded; cases r <;> rfl

theorem loaded_par (r : Bool) (l : List ν) : (loaded e r l w).par = w.par := by
  unfold loaded; cases r <;> rfl

theorem loadOne_ok (hp : e.computePoint = true) (h : Rel w st) (r s : Bool) (hc : s = true → w.cur ≠ none) :
    ∃ st', loadOne e r s st n = .ok st' ∧ Rel (done s [n] (loaded e r [n] w)) st' := by
  have h1 : ∃ s1, (if (st.maps n).isNone = true ∨ r = true then load e st n r else .ok st) = .ok s1 ∧
      Rel (loaded e r [n] w) s1 := by
    by_cases hh : (st.maps n).isNone = true ∨ r = true
    · rw [if_pos hh]; exact load_ok hp h r
    · rw [if_neg hh]
      refine ⟨st, rfl, ?_⟩
      have hr : r = false := by
        cases r
        · rfl
        · exact absurd (Or.inr rfl) hh
      cases hi : w.img n with
      | none => exact absurd (Or.inl (by rw [h.none n hi]; rfl)) hh
      | some i => rw [hr]; unfold loaded; simp only [Bool.false_eq_true, if_false]; rw [touch_self hi]; exact h
  obtain ⟨s1, e1, r1⟩ := h1
  unfold loadOne
  rw [e1]
  simp only [Res.bind_ok]
  cases s with
  | false =>
    refine ⟨s1, by simp, ?_⟩
    unfold done
    split
    · exact r1
    · simpa using r1
  | true =>
    simp only [if_true]
    have hcur : s1.cur = w.cur := r1.cur.trans (loaded_cur r [n])
    cases hf : w.cur with
    | none => exact absurd hf (hc rfl)
    | some f =>
      rw [hcur, hf]
      simp only
      obtain ⟨s2, e2, r2⟩ := writeMap_ok (n := n) hp r1 f
      refine ⟨s2, e2, ?_⟩
      have hi := loaded_img (w := w) (e := e) r [n] (List.mem_singleton.2 rfl)
      rw [touch_self hi, image_some hi] at r2
      unfold done
      rw [loaded_cur, hf]
      simp only [true_and, ne_eq, reduceCtorEq, not_false_eq_true, if_true, List.cons_ne_self]
      unfold stored
      have : withMap ((loaded e r [n] w).content f false) n (if r = true then e.own n else World.image e w n) =
          { (loaded e r [n] w).content f false with map := fun m => if m ∈ [n] then (loaded e r [n] w).img m else ((loaded e r [n] w).content f false).map m } := by
        unfold withMap
        congr 1
        funext m
        by_cases e3 : m = n
        · subst e3; simp [hi]
        · simp [e3]
      rw [← this]
      exact r2

theorem done_cur (s : Bool) (l : List ν) : (done s l w).cur = w.cur := by
  unfold done
  cases h : w.cur with
  | none => simp only [h]
  | some f =>
    simp only
    split
    · exact h
    · exact h

theorem done_img (s : Bool) (l : List ν) : (done s l w).img = w.img := by
  unfold done
  split
  · rfl
  · split <;> rfl

theorem done_par (s : Bool) (l : List ν) : (done s l w).par = w.par := by
  unfold done
  split
  · rfl
  · split <;> rfl

theorem inFile_eq (w : World φ ν ι π) (f : φ) (h : w.cur = some f) (m : ν) : w.inFile m = (w.content f false).map m := by
  unfold World.inFile World.content
  rw [h]
  simp only [Option.bind_some]
  cases w.files f <;> rfl

theorem stored_content (f : φ) (l : List ν) : (stored f l w).content f false =
    { w.content f false with map := fun n => if n ∈ l then w.img n else (w.content f false).map n } := by
  have : ∀ X : File ν ι π, (w.write f X).content f false = X := by
    intro X
    unfold World.content World.write
    simp
  exact this _

theorem done_inFile (s : Bool) (l : List ν) {m : ν} (h : m ∉ l) : (done s l w).inFile m = w.inFile m := by
  cases hf : w.cur with
  | none => unfold done; rw [hf]
  | some f =>
    rw [inFile_eq w f hf, inFile_eq _ f ((done_cur s l).trans hf)]
    unfold done
    rw [hf]
    simp only
    split
    · rw [stored_content]; simp only [if_neg h]
    · rfl

theorem step_img (r s : Bool) (m : ν) (hr : r = false) : (done s [n] (loaded e r [n] w)).image e m = w.image e m := by
  by_cases h : m = n
  · subst h
    refine image_some ?_
    rw [done_img, loaded_img r [m] (List.mem_singleton.2 rfl), hr]; rfl
  · have h1 : m ∉ [n] := by simpa using h
    unfold World.image
    rw [done_inFile s [n] h1, done_img]
    have : (loaded e r [n] w).img m = w.img m := by
      rw [hr]; unfold loaded World.touch; simp [h]
    rw [this]
    have : (loaded e r [n] w).inFile m = w.inFile m := by
      unfold World.inFile; rw [loaded_cur, loaded_files]
    rw [this]

theorem world_ext {a b : World φ ν ι π} (h1 : a.cur = b.cur) (h2 : a.files = b.files) (h3 : a.img = b.img) (h4 : a.par = b.par) : a = b := by
  cases a; cases b; cases h1; cases h2; cases h3; cases h4; rfl

theorem step_img2 (r s : Bool) (l : List ν) :
    (loaded e r l (done s [n] (loaded e r [n] w))).img = (loaded e r (n :: l) w).img := by
  funext m
  cases r with
  | true =>
    show (if m ∈ l then some (e.own m) else (done s [n] (loaded e true [n] w)).img m) = (if m ∈ n :: l then some (e.own m) else w.img m)
    rw [done_img]
    show (if m ∈ l then some (e.own m) else (if m ∈ [n] then some (e.own m) else w.img m)) = _
    by_cases h1 : m = n <;> by_cases h2 : m ∈ l <;> simp [h1, h2]
  | false =>
    show (if m ∈ l then some ((done s [n] (loaded e false [n] w)).image e m) else (done s [n] (loaded e false [n] w)).img m) =
      (if m ∈ n :: l then some (w.image e m) else w.img m)
    rw [step_img false s m rfl, done_img]
    show (if m ∈ l then some (w.image e m) else (if m ∈ [n] then some (w.image e m) else w.img m)) = _
    by_cases h1 : m = n
    · subst h1; by_cases h2 : m ∈ l <;> simp [h2]
    · simp [h1]

theorem done_files_some (l : List ν) {f : φ} (hf : w.cur = some f) (hl : l ≠ []) : (done true l w).files = (stored f l w).files := by
  unfold done
  rw [hf]
  simp only [true_and, if_pos hl]

theorem done_false (l : List ν) : done false l w = w := by
  unfold done
  split
  · rfl
  · simp

theorem done_nil (s : Bool) : done s [] w = w := by
  unfold done
  split
  · rfl
  · simp

theorem step_all (r s : Bool) (l : List ν) :
    done s l (loaded e r l (done s [n] (loaded e r [n] w))) = done s (n :: l) (loaded e r (n :: l) w) := by
  refine world_ext ?_ ?_ ?_ ?_
  · simp only [done_cur, loaded_cur]
  · cases s with
    | false => simp only [done_false, loaded_files]
    | true =>
      cases hf : w.cur with
      | none =>
        unfold done
        simp only [loaded_cur, hf, loaded_files]
      | some f =>
        rw [done_files_some (n :: l) (f := f) (by rw [loaded_cur, hf]) (by simp)]
        have hi : (loaded e r [n] w).img n = (loaded e r (n :: l) w).img n := by
          rw [loaded_img r [n] (by simp), loaded_img r (n :: l) (by simp)]
        have hc : (loaded e r [n] w).content f false = w.content f false := by
          unfold World.content; rw [loaded_files]
        have hc3 : (loaded e r (n :: l) w).content f false = w.content f false := by
          unfold World.content; rw [loaded_files]
        have hd : done true [n] (loaded e r [n] w) = stored f [n] (loaded e r [n] w) := by
          unfold done; rw [loaded_cur, hf]; simp
        have hc2 : (loaded e r l (done true [n] (loaded e r [n] w))).content f false =
            { w.content f false with map := fun m => if m ∈ [n] then (loaded e r [n] w).img m else (w.content f false).map m } := by
          have : (loaded e r l (done true [n] (loaded e r [n] w))).content f false =
              (done true [n] (loaded e r [n] w)).content f false := by
            unfold World.content; rw [loaded_files]
          rw [this, hd, stored_content, hc]
        by_cases hl : l = []
        · subst hl
          rw [done_nil, loaded_files, hd]
        · rw [done_files_some l (f := f) (by rw [loaded_cur, done_cur, loaded_cur, hf]) hl]
          have hi2 := step_img2 (e := e) (w := w) (n := n) r true l
          funext g
          unfold stored World.write
          simp only
          rw [hc2, hi2, hc3, loaded_files, loaded_files]
          by_cases hg : g = f
          · rw [if_pos hg, if_pos hg]
            congr 2
            funext m
            by_cases h1 : m = n
            · subst h1
              by_cases h2 : m ∈ l
              · simp [h2]
              · simp [h2, hi]
            · simp [h1]
          · rw [if_neg hg, if_neg hg, hd]
            unfold stored World.write
            simp only [if_neg hg, loaded_files]
  · rw [done_img, done_img]; exact step_img2 r s l
  · simp only [done_par, loaded_par]

theorem loadAll_ok (hp : e.computePoint = true) (r s : Bool) : ∀ (l : List ν) (w : World φ ν ι π) (st : St φ ν ι π),
    Rel w st → (s = true → w.cur ≠ none) →
    ∃ st', loadAll e r s l st = .ok st' ∧ Rel (done s l (loaded e r l w)) st'
  | [], w, st, h, hc => by
    refine ⟨st, rfl, ?_⟩
    rw [done_nil]
    have : loaded e r [] w = w := by unfold loaded World.touch; cases r <;> simp
    rw [this]; exact h
  | n :: l, w, st, h, hc => by
    obtain ⟨s1, e1, r1⟩ := loadOne_ok (n := n) hp h r s hc
    obtain ⟨s2, e2, r2⟩ := loadAll_ok hp r s l _ s1 r1 (by rw [done_cur, loaded_cur]; exact hc)
    refine ⟨s2, ?_, ?_⟩
    · rw [loadAll, e1]; exact e2
    · rw [← step_all]; exact r2

theorem setImage_ok (hp : e.computePoint = true) (h : Rel w st) :
    ∃ st', setImage e st n i = .ok st' ∧ Rel { w with img := fun m => if m = n then some i else w.img m } st' := by
  unfold setImage
  cases hi : w.img n with
  | some j =>
    obtain ⟨x, hm, hx⟩ := h.here n j hi
    simp only [hm, deref, Res.bind_ok]
    exact ⟨_, rfl, put_rel h ⟨Or.inl rfl, fun h => by cases h⟩⟩
  | none =>
    obtain ⟨x, h1, h2⟩ := getMap_ok (n := n) hp h
    simp only [h.none n hi, h1, deref, Res.bind_ok, put_put]
    exact ⟨_, rfl, put_rel h ⟨Or.inl rfl, fun h => by cases h⟩⟩

theorem drop_ok (h : Rel w st) : ∃ st', drop e st n false = .ok st' ∧ Rel w st' := by
  unfold drop
  cases hi : w.img n with
  | none => exact ⟨st, by rw [h.none n hi], h⟩
  | some i =>
    obtain ⟨x, hm, hx⟩ := h.here n i hi
    simp only [hm]
    refine ⟨_, rfl, ?_⟩
    have hd : Holds st.files n i (dropped e false x) := by
      unfold dropped
      split
      · rename_i hc
        have hl : x.loc = false := by
          rcases hc with hc | hc
          · cases hc
          · exact hc.2
        exact ⟨Or.inr ⟨rfl, rfl⟩, fun _ => hx.2 hl⟩
      · exact hx
    have := put_rel h hd
    have e1 : ({ w with img := fun m => if m = n then some i else w.img m } : World φ ν ι π) = w := by
      refine world_ext rfl rfl ?_ rfl
      funext m
      by_cases h1 : m = n
      · subst h1; simp [hi]
      · simp [h1]
    rw [e1] at this; exact this

theorem erase_rel (h : Rel w st) : Rel { w with img := fun m => if m = n then none else w.img m } (erase st n) where
  cur := h.cur
  files := h.files
  par := h.par
  none := by
    intro m hm
    unfold erase
    simp only at hm ⊢
    by_cases h1 : m = n
    · rw [if_pos h1]
    · rw [if_neg h1] at hm ⊢; exact h.none m hm
  here := by
    intro m j hm
    unfold erase
    simp only at hm ⊢
    by_cases h1 : m = n
    · rw [if_pos h1] at hm; cases hm
    · rw [if_neg h1] at hm ⊢; exact h.here m j hm

theorem keep_some {a b : Option ι} {r : Bool} (h : a = some i) (hb : b = some i) : keep r a b = some i := by
  subst h; subst hb; cases r <;> rfl

theorem saveRest_ok (hp : e.computePoint = true) (hn : e.srcs.length < 500) (h : Rel w st) (r : Bool) {f : φ}
    {F : File ν ι π} (hF : w.files f = some F) :
    ∃ st', saveRest e r st f = .ok st' ∧
      Rel (w.write f { kept r w.img e.srcs F with weights := keep r F.weights e.weights }) st' := by
  obtain ⟨s1, e1, r1⟩ := saveLoop_ok hp (f := f) r e.srcs 0 w st F h hF
  unfold saveRest
  rw [show decide (499 < e.srcs.length) = false by simpa using Nat.lt_succ_iff.1 hn, e1]
  simp only [Res.bind_ok]
  refine ⟨_, rfl, ?_⟩
  have hf1 : s1.files f = some (kept r w.img e.srcs F) := by
    rw [r1.files]; exact if_pos rfl
  have hc : s1.content f = kept r w.img e.srcs F := by
    unfold St.content; rw [hf1]
  have key : ∀ v : Option ι, Rel (w.write f { kept r w.img e.srcs F with weights := v })
      (s1.write f { kept r w.img e.srcs F with weights := v }) := by
    intro v
    have := write_rel (f := f) (X := { kept r w.img e.srcs F with weights := v }) r1
      (fun G hG m i _ hmi => by
        rw [hf1] at hG
        cases hG
        exact hmi)
    rw [write_write] at this
    exact this
  unfold saveWeights
  rw [hc]
  cases hw : e.weights with
  | none =>
    simp only [keep]
    exact r1
  | some v =>
    simp only
    split
    · rename_i hh
      have hk : (kept r w.img e.srcs F).weights = F.weights := rfl
      rw [hk] at hh
      obtain ⟨u, hu⟩ := Option.isSome_iff_exists.1 hh.1
      rw [hh.2, hu]
      have : ({ kept false w.img e.srcs F with weights := keep false (some u) (some v) } : File ν ι π) = kept false w.img e.srcs F := by
        unfold kept keep; cases F; simp only at hu; subst hu; rfl
      rw [this, ← hh.2]
      exact r1
    · rename_i hh
      have hk : (kept r w.img e.srcs F).weights = F.weights := rfl
      rw [hk] at hh
      have : keep r F.weights (some v) = some v := by
        unfold keep
        cases r with
        | true => rfl
        | false =>
          cases hu : F.weights with
          | none => rfl
          | some u => rw [hu] at hh; exact absurd ⟨rfl, rfl⟩ hh
      rw [this]
      exact key (some v)

theorem save_ok (hp : e.computePoint = true) (hn : e.srcs.length < 500) (h : Rel w st) (f : φ) (r c : Bool) :
    ∃ st', save e st (some f) r c = .ok st' ∧ Rel (w.step e (.save (some f) r c)) st' := by
  have h' : Rel { w with cur := some f } { st with cur := some f } :=
    ⟨rfl, h.files, h.par, h.none, h.here⟩
  unfold save
  simp only
  unfold World.step
  simp only
  have hfe : st.files f = w.files f := by rw [h.files]
  cases hF : w.files f with
  | some F =>
    rw [hfe, hF]
    simp only [Option.isSome_some, if_true]
    obtain ⟨s1, e1, r1⟩ := saveRest_ok hp hn h' r (f := f) (F := F) hF
    refine ⟨s1, e1, ?_⟩
    have : w.content f c = F := by unfold World.content; rw [hF]; rfl
    rw [this]
    exact r1
  | none =>
    rw [hfe, hF]
    simp only [Option.isSome_none, Bool.false_eq_true, if_false]
    have h2 : Rel ({ w with cur := some f }.write f (fresh c)) ({ st with cur := some f }.write f (fresh c)) :=
      write_rel h' (fun G hG => by
        have : st.files f = some G := hG
        rw [hfe, hF] at this; cases this)
    obtain ⟨s1, e1, r1⟩ := saveRest_ok hp hn h2 r (f := f) (F := fresh c) (if_pos rfl)
    refine ⟨s1, e1, ?_⟩
    have : w.content f c = fresh c := by unfold World.content; rw [hF]; rfl
    rw [this]
    rw [write_write] at r1
    exact r1

theorem saveTotal_ok (hp : e.computePoint = true) (h : Rel w st) (hc : w.cur ≠ none) (r : Bool) :
    ∃ st', saveTotal e st r = .ok st' ∧ Rel (w.step e (.saveTotal r)) st' := by
  obtain ⟨s1, e1, r1⟩ := images_ok hp (e.srcs.filter e.fixed) w st h
  unfold saveTotal
  rw [e1]
  simp only [Res.bind_ok]
  cases hf : w.cur with
  | none => exact absurd hf hc
  | some f =>
    rw [h.cur, hf]
    refine ⟨_, rfl, ?_⟩
    unfold World.step
    simp only
    have hcur : (w.touch e (e.srcs.filter e.fixed)).cur = some f := hf
    rw [hcur]
    simp only
    rw [content_eq r1 f]
    have himg : (e.srcs.filter e.fixed).map ((w.touch e (e.srcs.filter e.fixed)).image e) =
        ((e.srcs.filter e.fixed).map fun n => some (w.image e n)).filterMap id := by
      have h0 : ∀ l : List ν, (l.map fun n => some (w.image e n)).filterMap id = l.map (w.image e) := by
        intro l
        induction l with
        | nil => rfl
        | cons a l ih => simp [ih]
      rw [h0]
      apply List.map_congr_left
      intro m hm
      apply image_some
      unfold World.touch
      simp only
      rw [if_pos hm]
    rw [himg]
    have hk : ∀ (o : Option ι) (t : ι), (if o.isSome = true ∧ r = false then o else some t) = keep r o (some t) := by
      intro o t
      cases o <;> cases r <;> rfl
    rw [hk, h.par]
    refine write_rel r1 (fun G hG m j _ hmj => ?_)
    have : (w.touch e (e.srcs.filter e.fixed)).content f false = G := by
      unfold World.content
      rw [← r1.files, hG]; rfl
    rw [this]
    exact hmj

theorem step_ok (hp : e.computePoint = true) (h : Rel w st) (o : Op φ ν ι π) (hg : Good e w o) :
    ∃ st', step e st o = .ok st' ∧ Rel (w.step e o) st' := by
  cases o with
  | use n =>
    obtain ⟨x, h1, h2, h3⟩ := use_ok (n := n) hp h
    refine ⟨st.put n (some x), ?_, ?_⟩
    · unfold step; simp only [h1, Res.bind_ok]
    · have := put_rel h h3
      rw [← touch_one] at this
      exact this
  | setImage n i => exact setImage_ok hp h
  | load n r =>
    obtain ⟨s1, e1, r1⟩ := load_ok (n := n) hp h r
    refine ⟨s1, e1, ?_⟩
    unfold World.step
    unfold loaded at r1
    cases r with
    | true => simpa using r1
    | false => simpa using r1
  | loadAll r s =>
    obtain ⟨s1, e1, r1⟩ := loadAll_ok hp r s e.srcs w st h hg
    refine ⟨s1, e1, ?_⟩
    have : w.step e (.loadAll r s) = done s e.srcs (loaded e r e.srcs w) := rfl
    rw [this]; exact r1
  | drop n force =>
    have : force = false := hg
    subst this
    exact drop_ok h
  | erase n => exact ⟨_, rfl, erase_rel h⟩
  | save f r c =>
    obtain ⟨g1, g2⟩ := hg
    cases f with
    | none => exact absurd rfl g1
    | some f => exact save_ok hp g2 h f r c
  | savePart f n a b r => exact absurd hg (fun h => h)
  | setPar p => exact ⟨_, rfl, h.cur, h.files, rfl, h.none, h.here⟩
  | saveTotal r => exact saveTotal_ok hp h hg r

theorem run_ok (hp : e.computePoint = true) : ∀ (ops : List (Op φ ν ι π)) (w : World φ ν ι π) (st : St φ ν ι π),
    Rel w st → AllGood e w ops → ∃ st', run e st ops = .ok st' ∧ Rel (w.run e ops) st'
  | [], w, st, h, _ => ⟨st, rfl, h⟩
  | o :: os, w, st, h, hg => by
    obtain ⟨s1, e1, r1⟩ := step_ok hp h o hg.1
    obtain ⟨s2, e2, r2⟩ := run_ok hp os _ s1 r1 hg.2
    refine ⟨s2, ?_, r2⟩
    rw [run, e1]; exact e2

theorem start_rel (files : φ → Option (File ν ι π)) (cur : Option φ) (p : π) :
    Rel ⟨cur, files, fun _ => none, p⟩ (start files cur p : St φ ν ι π) :=
  ⟨rfl, rfl, rfl, fun _ _ => rfl, fun _ _ h => by cases h⟩

end Verif.MapFile
