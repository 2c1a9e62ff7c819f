/-
Sample identifiers.  Models `Sampler._get_sample_tag`, /repo/mlmc/sampler.py:114-120.
-/
namespace MLMC

/-- A Python `str` as the list of its characters. The identifiers of /repo/mlmc/sampler.py:114-120. -/
abbrev SampleId := List Char

/-- Python `"{:0wd}".format(n)` for a non-negative integer `n`: decimal digits, left-padded with `'0'` to
width `w`; numbers with more digits are not truncated.  (/repo/mlmc/sampler.py:120) -/
def zpad (w n : Nat) : List Char :=
  List.replicate (w - (Nat.toDigits 10 n).length) '0' ++ Nat.toDigits 10 n

/-- `"L{:02d}_S{:07d}".format(level_id, int(self._n_scheduled_samples[level_id]))`,
/repo/mlmc/sampler.py:114-120.  `n` is the running number, i.e. the value of `_n_scheduled_samples[level]`. -/
def sampleTag (level n : Nat) : SampleId :=
  'L' :: (zpad 2 level ++ '_' :: 'S' :: zpad 7 n)

end MLMC
