import Verif.Proofs.SrBatch
/-!
# C119: super-resolution of a folder

The statements speak about the output folder as a map from file names to contents. `Result t n r g` (`Spec/SrBatch`): the image file `n` can be read, `r` is the network's result for it and `g` the
comparison image. `srFile n` and `compareFile n` are `<stem>_sr.png` and `<stem>_compare.png`.
-/
namespace OnnxTool.Props
open OnnxTool OnnxTool.SrBatch
variable {I R : Type}

/-! ## which files are taken -/

private theorem ext_unique : ∀ a ∈ extensions, ∀ b ∈ extensions, a.toList.isSuffixOf b.toList = true → a = b := by decide +kernel

private theorem matchesExt_iff (n e : String) : matchesExt n e = true ↔ e.toList <:+ n.toList ∧ n.toList.head? ≠ some '.' := by
  unfold matchesExt
  rw [Bool.and_eq_true, List.isSuffixOf_iff_suffix]
  refine and_congr_right fun _ => ?_
  cases n.toList with
  | nil => decide
  | cons c cs =>
    have h1 : (!(['.'].isPrefixOf (c :: cs))) = !('.' == c) := by rw [List.isPrefixOf_cons_cons]; cases ('.' == c) <;> rfl
    rw [h1, List.head?_cons, Bool.not_eq_true', beq_eq_false_iff_ne]
    exact ⟨fun h e => h (Option.some.inj e).symm, fun h e => h (congrArg some e.symm)⟩

/-- C119: the images are the files with one of the six endings in lower or in upper case that do not begin with a dot, each taken once, in the order of their names. -/
theorem C119_selected (folder : List String) (hd : folder.Nodup) :
    (∀ n, n ∈ selected folder ↔ n ∈ folder ∧ n.toList.head? ≠ some '.' ∧
      ∃ e ∈ [".png", ".jpg", ".jpeg", ".bmp", ".tiff", ".webp", ".PNG", ".JPG", ".JPEG", ".BMP", ".TIFF", ".WEBP"], e.toList <:+ n.toList) ∧
    (selected folder).Nodup ∧ (selected folder).Pairwise (· ≤ ·) := by
  refine ⟨fun n => ?_, ?_, List.pairwise_insertionSort _ _⟩
  · unfold selected
    rw [List.mem_insertionSort, List.mem_flatMap]
    have hperm : ∀ e, e ∈ extensions ↔ e ∈ [".png", ".jpg", ".jpeg", ".bmp", ".tiff", ".webp", ".PNG", ".JPG", ".JPEG", ".BMP", ".TIFF", ".WEBP"] := by
      intro e; unfold extensions; simp only [List.mem_cons, List.not_mem_nil, or_false]; tauto
    constructor
    · rintro ⟨e, he, hn⟩
      obtain ⟨h1, h2⟩ := List.mem_filter.1 hn
      obtain ⟨h3, h4⟩ := (matchesExt_iff n e).1 h2
      exact ⟨h1, h4, e, (hperm e).1 he, h3⟩
    · rintro ⟨h1, h4, e, he, h3⟩
      exact ⟨e, (hperm e).2 he, List.mem_filter.2 ⟨h1, (matchesExt_iff n e).2 ⟨h3, h4⟩⟩⟩
  · unfold selected
    rw [(List.perm_insertionSort (· ≤ ·) _).nodup_iff, List.nodup_flatMap]
    refine ⟨fun e _ => hd.filter _, ?_⟩
    have hnd : extensions.Nodup := by decide +kernel
    refine List.Pairwise.imp_of_mem ?_ hnd
    intro a b ha hb hab
    refine List.disjoint_left.2 fun n h1 h2 => ?_
    have s1 := ((matchesExt_iff n a).1 (List.mem_filter.1 h1).2).1
    have s2 := ((matchesExt_iff n b).1 (List.mem_filter.1 h2).2).1
    rcases List.suffix_or_suffix_of_suffix s1 s2 with h | h
    · exact hab (ext_unique a ha b hb (List.isSuffixOf_iff_suffix.2 h))
    · exact hab (ext_unique b hb a ha (List.isSuffixOf_iff_suffix.2 h)).symm

/-! ## the end of a batch -/

private theorem other_name (t : Tool I R) (old : Dict R) (L : List String) (f : String) (h : ∀ n ∈ L, f ≠ srFile n ∧ f ≠ compareFile n) :
    (content old (L.flatMap fun n => (ofImage t n).1)).get? f = old.get? f := by
  refine content_other old _ f fun w hw e => ?_
  obtain ⟨n, hn, h1 | h1⟩ := flatMap_names t L w hw
  · exact (h n hn).1 (e ▸ h1)
  · exact (h n hn).2 (e ▸ h1)

/-- C119: after a batch without an exception every image could be read and processed, the two files of every image that is the last, in the order of the names, of those with its stem are its result and
its comparison, and no other file of the output folder has changed. -/
theorem C119_end (t : Tool I R) (folder : List String) (hd : folder.Nodup) (old out : Dict R) (h : batchEnd t folder old = (out, none)) :
    (∀ n ∈ selected folder, ∃ r g, Result t n r g) ∧
    (∀ n ∈ selected folder, (∀ m ∈ selected folder, stemOf m = stemOf n → m ≤ n) → ∃ r g, Result t n r g ∧ out.get? (srFile n) = some r ∧ out.get? (compareFile n) = some g) ∧
    (∀ f, (∀ n ∈ selected folder, f ≠ srFile n ∧ f ≠ compareFile n) → out.get? f = old.get? f) := by
  obtain ⟨h1, h2⟩ := Prod.mk.inj h
  obtain ⟨hall, hw⟩ := loop_ok t _ h2
  obtain ⟨_, hnd, hs⟩ := C119_selected folder hd
  rw [hw] at h1
  refine ⟨fun n hn => ?_, fun n hn hlast => ?_, fun f hf => ?_⟩
  · obtain ⟨r, g, hres, _⟩ := (ofImage_ok t n).1 (hall n hn)
    exact ⟨r, g, hres⟩
  · obtain ⟨a, b, hab⟩ := List.append_of_mem hn
    have hb : ∀ m ∈ b, stemOf m ≠ stemOf n := by
      intro m hm e
      have hle := hlast m (by rw [hab]; simp [hm]) e
      rw [hab] at hs hnd
      have hge : n ≤ m := (List.pairwise_cons.1 (List.pairwise_append.1 hs).2.1).1 m hm
      have hne : n ≠ m := by
        have := (List.nodup_cons.1 (List.nodup_append.1 hnd).2.1).1
        exact fun e => this (e ▸ hm)
      exact hne (String.le_antisymm hge hle)
    obtain ⟨r, g, hres, hx, hy⟩ := content_image t old a b n (hall n hn) hb [] (by simp)
    rw [List.append_nil, ← hab, h1] at hx hy
    exact ⟨r, g, hres, hx, hy⟩
  · rw [← h1]; exact other_name t old _ f hf

/-- C119: a batch ends without an exception exactly when every image can be read, processed and compared. -/
theorem C119_succeeds (t : Tool I R) (folder : List String) (old : Dict R) : (batchEnd t folder old).2 = none ↔ ∀ n ∈ selected folder, ∃ r g, Result t n r g := by
  show (loop t (selected folder)).2 = none ↔ _
  constructor
  · intro h n hn
    obtain ⟨r, g, hres, _⟩ := (ofImage_ok t n).1 ((loop_ok t _ h).1 n hn)
    exact ⟨r, g, hres⟩
  · intro h
    generalize selected folder = L at h ⊢
    induction L with
    | nil => rfl
    | cons n L ih =>
      obtain ⟨r, g, im, h1, h2, h3⟩ := h n (by simp)
      have hn : (ofImage t n).2 = none := by unfold ofImage; simp [h1, h2, h3]
      rw [loop_cons, if_pos hn]
      exact ih fun m hm => h m (by simp [hm])

/-! ## a batch that is cut off -/

/-- C119: whatever the moment at which the program ends, when no two images have the same stem: there is a place in the sorted list of images such that the files of all images before it are right, the next
image's comparison is as it was before and its result either as it was or right, and all later images' files and all other files are as they were. -/
theorem C119_crash (t : Tool I R) (folder : List String) (old : Dict R) (k : Nat) (hd : ((selected folder).map stemOf).Nodup) :
    ∃ done rest, selected folder = done ++ rest ∧
      (∀ n ∈ done, ∃ r g, Result t n r g ∧ (batch t folder old k).get? (srFile n) = some r ∧ (batch t folder old k).get? (compareFile n) = some g) ∧
      (∀ n, rest.head? = some n → (batch t folder old k).get? (compareFile n) = old.get? (compareFile n) ∧
        ((batch t folder old k).get? (srFile n) = old.get? (srFile n) ∨ ∃ im r, t.imread n = .ok im ∧ t.process im = .ok r ∧ (batch t folder old k).get? (srFile n) = some r)) ∧
      (∀ n ∈ rest.tail, (batch t folder old k).get? (srFile n) = old.get? (srFile n) ∧ (batch t folder old k).get? (compareFile n) = old.get? (compareFile n)) ∧
      (∀ f, (∀ n ∈ selected folder, f ≠ srFile n ∧ f ≠ compareFile n) → (batch t folder old k).get? f = old.get? f) := by
  obtain ⟨done, rest, extra, h1, h2, h3, h4⟩ := loop_take t (selected folder) k
  have hb : batch t folder old k = content old ((done.flatMap fun n => (ofImage t n).1) ++ extra) := by unfold batch; rw [h3]
  rw [h1, List.map_append] at hd
  obtain ⟨hdd, hdr, hdis⟩ := List.nodup_append.1 hd
  have hdis' : ∀ m ∈ done, ∀ n ∈ rest, stemOf m ≠ stemOf n := fun m hm n hn => hdis _ (List.mem_map_of_mem hm) _ (List.mem_map_of_mem hn)
  -- the one file of the next image
  have hex : ∀ w ∈ extra, ∃ n, rest.head? = some n ∧ w.1 = srFile n := by
    intro w hw
    rcases h4 with rfl | ⟨n, im, r, hh, _, _, rfl⟩
    · simp at hw
    · rw [List.mem_singleton.1 hw]; exact ⟨n, hh, rfl⟩
  have hmem : ∀ n, rest.head? = some n → n ∈ rest := fun n h => List.mem_of_mem_head? h
  -- a file that is neither one of a finished image nor the result of the next is as before
  have hold : ∀ f, (∀ n ∈ done, f ≠ srFile n ∧ f ≠ compareFile n) → (∀ w ∈ extra, w.1 ≠ f) → (batch t folder old k).get? f = old.get? f := by
    intro f hf he
    rw [hb, content_append, content_other _ extra f he]
    exact other_name t old done f hf
  have hrest : ∀ n ∈ rest, ∀ m ∈ done, (srFile n ≠ srFile m ∧ srFile n ≠ compareFile m) ∧ (compareFile n ≠ srFile m ∧ compareFile n ≠ compareFile m) := fun n hn m hm =>
    ⟨⟨fun e => hdis' m hm n hn (sr_inj _ _ e).symm, sr_ne_compare n m⟩, ⟨(sr_ne_compare m n).symm, fun e => hdis' m hm n hn (compare_inj _ _ e).symm⟩⟩
  refine ⟨done, rest, h1, fun n hn => ?_, fun n hn => ⟨?_, ?_⟩, fun n hn => ?_, fun f hf => ?_⟩
  · obtain ⟨a, b, hab⟩ := List.append_of_mem hn
    have hbn : ∀ m ∈ b, stemOf m ≠ stemOf n := by
      intro m hm e
      rw [hab, List.map_append, List.map_cons] at hdd
      exact (List.nodup_cons.1 (List.nodup_append.1 hdd).2.1).1 (e ▸ List.mem_map_of_mem hm)
    obtain ⟨r, g, hres, hx, hy⟩ := content_image t old a b n (h2 n hn) hbn extra (by
      intro w hw
      obtain ⟨m, hm, e⟩ := hex w hw
      rw [e]
      exact ⟨fun e => hdis' n hn m (hmem m hm) (sr_inj _ _ e).symm, sr_ne_compare m n⟩)
    rw [← hab, ← hb] at hx hy
    exact ⟨r, g, hres, hx, hy⟩
  · refine hold _ (fun m hm => (hrest n (hmem n hn) m hm).2) fun w hw => ?_
    obtain ⟨m, hm, e⟩ := hex w hw
    rw [e]; exact sr_ne_compare m n
  · rcases h4 with he | ⟨m, im, r, hh, hi, hp, he⟩
    · exact .inl (hold _ (fun m hm => (hrest n (hmem n hn) m hm).1) (by simp [he]))
    · rw [hn] at hh; cases hh
      refine .inr ⟨im, r, hi, hp, ?_⟩
      rw [hb, he]
      exact content_last old _ [] _ _ (by simp)
  · have hnr := List.mem_of_mem_tail hn
    have hw : ∀ w ∈ extra, w.1 ≠ srFile n ∧ w.1 ≠ compareFile n := by
      intro w hw
      obtain ⟨m, hm, e⟩ := hex w hw
      rw [e]
      refine ⟨fun e => ?_, sr_ne_compare m n⟩
      cases hr : rest with
      | nil => rw [hr] at hm; cases hm
      | cons x xs =>
        rw [hr] at hm hn hdr; cases hm
        exact (List.nodup_cons.1 hdr).1 (by rw [sr_inj _ _ e]; exact List.mem_map_of_mem hn)
    exact ⟨hold _ (fun m hm => (hrest n hnr m hm).1) fun w h => (hw w h).1, hold _ (fun m hm => (hrest n hnr m hm).2) fun w h => (hw w h).2⟩
  · refine hold f (fun m hm => hf m (by rw [h1]; simp [hm])) fun w hw e => ?_
    obtain ⟨m, hm, e'⟩ := hex w hw
    exact (hf m (by rw [h1]; simp [hmem m hm])).1 (e ▸ e')

/-- C119: an image that cannot be read or processed ends the batch with that exception: of the images before it those that are the last with their stem have their files, and no other file of the output folder
has changed, in particular none of the images after it. -/
theorem C119_error (t : Tool I R) (folder : List String) (old : Dict R) (done rest : List String) (n : String) (e : PyErr) (hs : selected folder = done ++ n :: rest)
    (hdone : ∀ m ∈ done, ∃ r g, Result t m r g) (he : t.imread n = .error e ∨ ∃ im, t.imread n = .ok im ∧ t.process im = .error e) :
    (batchEnd t folder old).2 = some e ∧
    (∀ a m b, done = a ++ m :: b → (∀ x ∈ b, stemOf x ≠ stemOf m) →
      ∃ r g, Result t m r g ∧ (batchEnd t folder old).1.get? (srFile m) = some r ∧ (batchEnd t folder old).1.get? (compareFile m) = some g) ∧
    (∀ f, (∀ m ∈ done, f ≠ srFile m ∧ f ≠ compareFile m) → (batchEnd t folder old).1.get? f = old.get? f) := by
  have hn : ofImage t n = ([], some e) := by
    unfold ofImage
    rcases he with h | ⟨im, h, h'⟩
    · rw [h]
    · rw [h]; simp only [h']
  have hok : ∀ m, (∃ r g, Result t m r g) → (ofImage t m).2 = none := by
    rintro m ⟨r, g, im, h1, h2, h3⟩
    unfold ofImage; simp [h1, h2, h3]
  have hl : ∀ d : List String, (∀ m ∈ d, ∃ r g, Result t m r g) → loop t (d ++ n :: rest) = (d.flatMap fun m => (ofImage t m).1, some e) := by
    intro d hd
    induction d with
    | nil => rw [List.nil_append, loop_cons, hn, if_neg (by simp)]; rfl
    | cons m d ih =>
      rw [List.cons_append, loop_cons, if_pos (hok m (hd m (by simp))), ih fun x hx => hd x (by simp [hx])]
      rfl
  have hb : batchEnd t folder old = (content old (done.flatMap fun m => (ofImage t m).1), some e) := by
    unfold batchEnd
    rw [hs, hl done hdone]
  rw [hb]
  refine ⟨rfl, fun a m b hab hx => ?_, fun f hf => other_name t old done f hf⟩
  obtain ⟨r, g, hres, hx, hy⟩ := content_image t old a b m (hok m (hdone m (by rw [hab]; simp))) hx [] (by simp)
  rw [List.append_nil, ← hab] at hx hy
  exact ⟨r, g, hres, hx, hy⟩

/-- C119: a batch that is not cut off is one that is cut off after all its writes, so `C119_crash` speaks about it too. -/
theorem C119_end_batch (t : Tool I R) (folder : List String) (old : Dict R) : ∃ k, ∀ k' ≥ k, batch t folder old k' = (batchEnd t folder old).1 :=
  ⟨(loop t (selected folder)).1.length, fun k' hk => by unfold batch batchEnd; rw [List.take_of_length_le hk]⟩

/-! ## examples and what does not hold -/

/-- a tool for the examples: reading gives the name, `bad` files cannot be read, the result and the comparison carry the name -/
private def nameTool : Tool String String :=
  { imread := fun n => if "bad".toList.isPrefixOf n.toList then .error .valueError else .ok n
    process := fun n => .ok ("sr " ++ n)
    compare := fun n _ => .ok ("grid " ++ n) }

private def photos : List String := ["b.png", "notes.txt", "a.JPG", ".hidden.png", "c.webp", "d.Png"]

/-- C119: a folder with three images among six files: the hypotheses of `C119_end` and `C119_crash` hold, and the mixed case ending is left out -/
theorem C119_example : photos.Nodup ∧ selected photos = ["a.JPG", "b.png", "c.webp"] ∧ ((selected photos).map stemOf).Nodup ∧
    batchEnd nameTool photos [("old.png", "x")] = ([("old.png", "x"), ("a_sr.png", "sr a.JPG"), ("a_compare.png", "grid a.JPG"), ("b_sr.png", "sr b.png"), ("b_compare.png", "grid b.png"),
      ("c_sr.png", "sr c.webp"), ("c_compare.png", "grid c.webp")], none) ∧
    batch nameTool photos [] 3 = [("a_sr.png", "sr a.JPG"), ("a_compare.png", "grid a.JPG"), ("b_sr.png", "sr b.png")] := by
  refine ⟨by decide +kernel, by decide +kernel, by decide +kernel, by decide +kernel, by decide +kernel⟩

/-- C119, what does not hold: two images that differ only in their ending share their files, the first one's result is lost although the batch reports success. -/
theorem C119_same_stem : batchEnd nameTool ["a.png", "a.jpg"] [] = ([("a_sr.png", "sr a.png"), ("a_compare.png", "grid a.png")], none) ∧
    ∃ r g, Result nameTool "a.jpg" r g ∧ (batchEnd nameTool ["a.png", "a.jpg"] []).1.get? (srFile "a.jpg") ≠ some r := by
  refine ⟨by decide +kernel, "sr a.jpg", "grid a.jpg", ⟨"a.jpg", rfl, rfl, rfl⟩, by decide +kernel⟩

/-- C119, what does not hold: one file that cannot be read stops the batch, the images after it have no result; a file that an earlier batch left for them stays. -/
theorem C119_bad_file : batchEnd nameTool ["a.png", "bad.png", "c.png"] [("c_sr.png", "stale")] = ([("c_sr.png", "stale"), ("a_sr.png", "sr a.png"), ("a_compare.png", "grid a.png")], some .valueError) := by
  decide +kernel

/-- C119: the hypotheses of `C119_error` in that case -/
theorem C119_error_example : selected ["a.png", "bad.png", "c.png"] = ["a.png"] ++ "bad.png" :: ["c.png"] ∧ (∀ m ∈ ["a.png"], ∃ r g, Result nameTool m r g) ∧ nameTool.imread "bad.png" = .error .valueError := by
  refine ⟨by decide +kernel, ?_, rfl⟩
  intro m hm
  rw [List.mem_singleton.1 hm]
  exact ⟨_, _, "a.png", rfl, rfl, rfl⟩

end OnnxTool.Props
