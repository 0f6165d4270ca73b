# Formal model of DASDAE/dascore in Lean 4: design

## Layout

* `lean/Verif/Model/*.lean`  - the model. Total computable functions mirroring the Python
  function by function; each definition cites `/repo` file and lines and says what it simplifies.
* `lean/Verif/Spec/*.lean`   - small specifications which do not mention the model.
* `lean/Verif/Proof/*.lean`  - helper lemmas.
* `lean/Verif/Props/*.lean`  - the property theorems (`Cnn_...`), each with an `example` showing that a
  concrete case meets its hypotheses; counterexamples are `Cnn_..._violated` theorems.

Common conventions

* Exceptions are values: `Except Err a`, with one `Err` constructor per Python exception class.
* Coordinate values are rationals (`Rat`). Integers and nanosecond times are the integer rationals.
  float64 rounding is *not* modelled: a float is an exact rational, each arithmetic operation exact.
  Explicit rounding in the code (`np.round(x, 10)`, `np.rint`, `ceil`, `floor`, `int`) *is* modelled.
* One-dimensional arrays are `List`s; n-dimensional arrays are functions from index vectors together
  with a shape, or are handled one axis at a time ("the array of hyper-slices along the axis").
* numpy/pandas primitives used by the code (`searchsorted`, `argsort`, `isin`, `intersect1d`, slices,
  `cumsum`, `groupby`, `np.roll`, ...) are modelled by their documented meaning. They are trusted.

## Trusted base

* Lean's kernel, and the axioms `propext`, `Classical.choice`, `Quot.sound` (checked by `#print axioms`).
* The reading of the Python source: the code is never run here.
* The documented semantics of Python, numpy, pandas, pydantic, HDF5/pytables primitives named above.

## Plan per property

| id | model | proof |
|----|-------|-------|
| C01 | `CoordRange` validator over `Rat` with `np.round(.,1)`/`ceil` | characterise the integer sample count by inequalities; order lemmas for min/max |
| C02 | Python `slice.indices`, `range.__getitem__`, `CoordRange.__getitem__` | pointwise equality of generated lists |
| C03 | `CoordRange._get_index/select/_slice_degenerate/get_slice_tuple` | `ceil(round10 q) <= i` iff `q <= i + 5e-11`; filter of an arithmetic progression is a slice |
| C04 | `searchsorted` as counting, `CoordMonotonicArray._get_index/select` | counting lemmas on strictly sorted lists |
| C05 | `CoordArray.select` mask | `List.filter`; corollaries from C03, C04 |
| C06 | `CoordRange.sort`, `CoordArray.sort` with an abstract `argsort` that is a sorting permutation | `List.Perm` |
| C07 | `_order_by_value_array`, `_get_value_index` | counting lemmas; flatMap specification |
| C08 | `align_to` on top of C07 | sorted intersection |
| C09-C13 | `change_length`, `to_summary/to_coord`, `get_next_index`, `update_limits`, `snap` | corollaries of C01's characterisation |
| C14 | `get_coord(data=...)` classification | list induction |
| C15 | `_maybe_array_to_slice`, `_to_slice`, union indexers | list extensionality |
| C16 | `CoordManager` as dims + association list of (name, dims, shape/coord); one constructor per operation | invariant by induction over an operation list |
| C17 | indexers + labelled arrays as functions of index vectors | pointwise label equality |
| C18, C19 | `transpose`, `rename_coord` | permutations, functional extensionality |
| C20 | `get_intervals` with `np.arange` | arithmetic on the k-th interval |
| C21, C22 | `ChunkManager` grouping and instructions over lists of rows | induction over sorted rows |
| C23 | buffer state machine (allocate, grow, write, trim) | invariant: written prefix = concatenation so far |
| C24 | `split` loop with fuel | list take/drop |
| C25 | `_spool_map` with an executor satisfying `map` contract / any chunk size | flatten of chunks |
| C26, C27, C28 | row tables as lists of records | filter specification, interval arithmetic |
| C29 | file system + index state machine with crash points | invariants over histories |
| C30, C31 | kernel query; ring cache state machine | refinement to the uncached query |
| C32, C33 | registry as association lists, generator as list | induction over registrations |
| C34 | resource-manager state machine with an event log | invariant: log |
| C35 | HDF5 group as a key/value tree; save/load of a patch | round trip |
| C36, C37 | attribute maps; merge of managers and data | fold lemmas |
| C38 | integer/rational conversion functions with `rint` | arithmetic |
| C39 | `get_gap_edges` over lists | induction |
| C40 | `patch_function` wrapper as a higher order function | induction over the sequence |
| C41, C42 | decision logic over lists and flags | case analysis |
| C43, C44, C45, C46 | index arithmetic over `Nat`/`Int` and lists | omega, list extensionality |
| C47, C48, C49, C50, C51, C52, C53, C54 | list/tree models | induction |
| C55 | spool tables with index labels, joins | refinement to list operations |
| C56, C57, C58 | operations of the manager and of n-dimensional arrays | pointwise label equality |
| C59 | attribute maps with coordinate summaries | induction over the parts |
| C60 | alignment, broadcasting and merging of coordinates | relation between both patches and their aligned forms |
| C61 | numpy.gradient with its stencils, strides, strain rates | polynomials of degree two exactly, through coordinates as places |
| C62 | cumulative and definite trapezoids, limits as coordinates | the sum is characterised by its first value and its growth |
| C63 | dft over exact complex numbers, with padding, shift, scale and names | the data are Fourier sums at the new labels |
| C64 | idft of a dft | orthogonality of roots of unity, labels through the stored coordinates |
| C65 | line_mute and slope_mute with exact geometry | linear algebra in the plane; the region is a wedge, a strip or a range of slopes |
| C66 | units as dimension, scale and offset over any field; coordinates and patches with units; the cache as a list of earlier calls | field identities; invariant of the cache over all histories |
| C67 | limits of filters and sequences of quantities | order of reciprocals in an ordered field |
| C68 | interpolation of a line over its sorted labels, coordinates through `update` | sorting, neighbours in a sorted list, straight lines |
| C69 | resampling with the Fourier method as a parameter; number, step and units | arithmetic of progressions and rounding; composition with C68 |
| C70 | the windows of scipy and bottleneck on one line, the shift, the choice of the engine | both windows are the same piece of the line away from the ends; bounds of medians and means |
| C71 | separable and exact median filter, the decision per sample, the detour through 32 bit floats | along one dimension both filters are C70's median; sorting a list with one different element; bounds carried through all dimensions |
| C72 | one function of a line per operation, over an ordered field with a square root as a parameter; NaN as a missing sample | sums of lists; uniqueness of the factor; least squares from the vanishing moments of the residuals |
| C73 | the three tables of a spool with rows of cells, loading with trimming; specification: a list of patches, each with all the queries it was asked | induction over histories: each row tracks a patch and its queries (C26, C27, C55); then C03 for the samples |
| C74 | a file as a list of patches; loading a row: filter by attributes, cut by limits, drop what is empty, take the first | the patch of the row passes as a whole, earlier ones are dropped if they can be told apart; counterexamples otherwise |
| C75 | both loops over slowness, time and trace with indices as in numba; specification: sum of interpolated traces along lines | each summand is the trace at its time; reflection of the sum for negative slownesses; counterexamples for uneven and descending distances and for the order of dimensions |
| C76 | check of the limits (lists compare by first difference), mask over the reals, transform and inverse of Model/Fourier | the inverse of a transform multiplied by a function of the frequencies is a double sum of waves; the mask determined by its conditions; counterexamples for lists, equal limits, half transformed and complex patches |
| C77 | the checks of the limits, the choice of band and the refusals of scipy; the filter of a line is a parameter | equivalence between acceptance and limits inside zero and Nyquist; lines of the result; exchange of sums for the order of dimensions; counterexamples for the ends of the range, `...` and descending labels |
| C78 | windows, sizes and axes, the block of positions scipy reads and the sample of middle rank; the Savitzky-Golay and Gaussian filters of a line are parameters | the block is the box of reflected positions, of odd size, so that the middle rank is the median; sorting commutes with monotone functions; folds over dimensions; counterexamples for even windows, several Savitzky-Golay dimensions, fractional deviations and descending labels |
| C79 | windowed and recursive kurtosis of a line, the window in samples, STA/LTA by two rolling means and their quotient | expansion of central moments into sums of powers; induction over the samples for the recursion; Cauchy-Schwarz for the lower bound; rolling windows of every sample; counterexamples for offsets, later samples and windows that round to the same number of samples |
| C80 | scipy's weighted Fourier transform along an axis, its absolute value, unit phasors and means over an axis, the coordinates of the stack | orthogonality of waves gives the spectrum of the result, conjugation its real part; uniqueness of the analytic signal gives linearity and tones; the stack is an aggregation of pairs of a sample and its phase; a counterexample for signals weaker than the limit of the phases |
| C81 | the checks, the number of frequencies and the live ones, the zero padded Fourier transform, unit phases, the phase shift stack, coordinates | positions of the first frequency at a limit; Fourier sums in terms of the samples of the gather in either order; orthogonality of waves for plane waves; a counterexample for the velocity and frequency of a plane wave |
| C82 | the arguments, the checks, forward transform, smoothing with wrapping and water level, the frequency taper, the inverse transform | the round trip of the transforms as Fourier sums over complex or half spectra (conjugate symmetry); directions of complex numbers; the range taper of C46; counterexamples for padding, dead traces and other transformed dimensions |
| C83 | the arguments, scipy's ShortTimeFFT as far as it is used (slices, frames, rolling, dual window, overlap and add), the coordinates made and read back, the refusals | frames as Fourier sums centred at the slices; the canonical dual window sums to one over all windows (finite sums over integers); ends by minimality of the search; the coordinate managers built; counterexamples for descending labels, extra coordinates, nearly even windows and transposed results |
| C84 | how values become labels: seconds, quantities, percentages, offsets from either end; `select` with these | each kind of value separately (rounding by C38, units by C66), then C17 for the selection; one group of keywords if relative; counterexamples for crossing limits, temperatures, times starting at zero and coordinates of no dimension |
| C85 | how coordinate information is found among attributes, `PatchAttrs`, `update_from_attrs`, the constructor, `update_attrs`, `update` | an invariant over all histories (summaries are those of the coordinates, no other attribute looks like coordinate information); exact results for one attribute and for one field of a dimension (limits by C12); counterexamples for names beginning like a dimension, names with underscores, other coordinates and dictionaries without dimensions |
| C86 | binary ufuncs of patches with patches, quantities and numbers, unary ufuncs, with the units of the data and the attributes compared | a small specification of amounts and kinds; the rule for magnitudes and units is shown to compute amounts (case by case over pint's rules), then composed with C60; refusals and totality exactly; invariance under change of units as a corollary; counterexamples for powers, functions, patches with different units, zeros and numbers without units |
| C87 | the reader of Febus A1 files: the time step, the rows kept of a block, both coordinates, choosing blocks, cutting and reshaping | layout of the header as a specification; arrays as lists of rows, slices shown to act on samples as on labels; the chosen blocks are shown to contain every row between the limits; whole file, limits of distance exactly, limits of time with the shift of one sample they have (partial), refusal of both together; counterexamples |
| C88 | the TDMS reader: full chunks (view, roll, reshape), the rest, several segments, both coordinates, limits | the place of each sample in the file as a specification; index arithmetic of roll and reshape; in full for interleaved files and at most one full chunk (partial), the exact order otherwise, refusal of full chunks only and of several segments; counterexamples |
| C89 | the Sintela reader: counting packets, both coordinates, skipping headers, decoding and reshaping bytes, limits | a file is specified as it is written (headers and encoded samples); cutting concatenated lists of equal length recovers them; then the shared lemma that selection picks rows and channels by their labels |
| C90 | the Terra15 reader: the times used, both coordinates, the index which ends within the filled rows, limits, `snap_dims` | selections of even coordinates are slices within them, so the adjusted slice of the longer table cuts its filled rows; rounding bounds for the labels; with `snap_dims=False` and unfilled rows the coordinate is an unsorted array and its selections are refused (two violations) |
| C91 | the SEGY writer (checks, channel numbers, transposition, time headers) and reader (coordinates, limits, stacking of traces) | reading: selections of lists commute with maps, so cutting traces and stacking them is cutting the table; writing: the four orders of dimensions; composition gives the round trip with the start floored to seconds and the step rounded to microseconds; five violations |
| C92 | `where`, with the alignment of C60 | the laid out positions of C60 with the coordinates of the first patch instead of the merged ones; broadcasting which leaves a shape as it is absorbs both others; two violations: a transposed condition, a condition by position |
| C93 | `h5simple/utils.py` (dimensions from lengths, filling, snapping), `H5Simple.read` over the model of managers | distinct lengths make the dictionary by length a list of all arrays; the length of a snapped range is decided by an exact criterion (`LittleLost`), in both directions; that `select` succeeds is C17_select_succeeds; four violations |
| C94 | `prodml/utils.py` (time and distance coordinates, bands and raw nodes, `_read_prodml`) over the model of managers; a library for readers which label an array and select from it (`Model/Labelled`) | the number of labels and the difference to the last stored time are computed exactly for every spacing; evenly spaced labels, the array, or an exact exception (`Unlucky`); the rest from C17; six violations |
| C95 | the coordinates made by the readers of AP Sensing, Silixa, Neubrex, GDR, OptoDAS and DASVader, over `Model/Labelled` | each reader's coordinates are computed; one theorem on reading with two coordinates gives whole and partial reads; for DASVader an exact criterion when the number of labels is right; four violations |
| C96 | `stack_patches` with `check_dims`, `check_coords` and numpy broadcasting of the sum | loop invariant over the patches (the accumulated array is the sum over the agreeing ones so far); coordinates through `update_coords`; four violations |
| C97 | `coords_from_df` with `np.interp` and `interp1d`, `add_distance_to` with any norm | the value computed is characterised through the sorted rows around a label; the coordinates through `update_coords`; three violations |
| C98 | `snap_coords`: `CoordManager.snap` after `sort`, with `coord.snap` | the fold over the names keeps the sorted patch and snaps each named coordinate once; the order carried from sort to snap; one violation (`reverse`, repeated labels) |
| C99 | `patch_to_dataframe`, `dataframe_to_patch`, `patch_to_xarray`, `xarray_to_patch` with `get_coord_manager(..., shape=)` | one lemma for all patches built from arrays of a patch's coordinates; round trips follow; two violations |
| C100 | `_read_single_file`, `_load_patches`, `_make_time_coord`, `_make_distance_coord`, the cache of `_read_xml_metadata` | reading succeeds and selects; filtering loses nothing; two violations (stride, stale header) |
| C101 | `_get_cf_coords` and `read` of DASHDF5 | six coordinates along two dimensions, turned round if the shape differs; selection by C17's lemma; a violation when both dimensions have the same length |
| C102 | `radians_to_strain` with products of units as names with exponents | exponents of products; substring test on names; idempotence by the test on the new units; a violation for a gauge length NaN |
| C103 | the header of RSF files and the order of the samples | induction on the shape: position of an index in the Fortran order; labels of even coordinates |
| C104 | directories as dictionaries of WAV files, written channel by channel | fold over the channels with distinct names; a violation for labels that come twice |
| C105 | patches to lists of traces and back, with the rounding of timestamps as a parameter | the stream of a patch in closed form; the manager put together from the header entries and times; violations: descending times, drift from floats, one dimension |
| C106 | `apply_array_func` and `_reassemble_patch` with an arbitrary function of arrays | equal shapes: the manager is reused; other shapes: the expanded result has more axes than the manager; violations: a square patch transposed, several patches with different labels |
| C107 | the text made from the name, character by character; a file as the list of its numbers; coordinates and samples | the text in closed form for all digits; the manager from evenly spaced times and distances; violations: seconds below ten, spacing, truncated steps |
| C108 | the bytes of a file, the map, places and contents of blocks, fixed parameters and samples | the reader undoes the writer, by induction over blocks; what is read from a prefix is read from the whole, so sizes do not fit a file cut off |
| C109 | labels of `rfft`; slices, labels and dimensions of `spectrogram` | arithmetic on evenly spaced labels; means of slices by induction; counterexamples for spacings other than one and for descending coordinates |
| C110 | trees of elements, dictionaries, the loop over the children | induction over trees; an invariant of the loop says what is under each tag; the texts are a permutation |
| C111 | the registry, loaded entry points and what objects keep, as a state; histories of events | invariants over histories; the class found is the last one offered |

<!-- generated: /-- docstrings -/ of the theorems -->

Nothing in the list is inexpressible. Where a theorem covers part of the claim its name ends in `_partial`, and its comment and
the note in `MANIFEST.json` say what is missing.

## What is modelled

| code in /repo/dascore | model | left out |
|---|---|---|
| core/coords.py: `CoordRange`, `CoordArray`, `CoordMonotonicArray`, `get_coord`, select, order, align_to, sort, snap, update, change_length, get_next_index, get_sample_count, summaries | Model/CoordRange, CoordArray; limits with units, percentages and offsets in Model/Relative | float64 error, `CoordPartial` beyond its length, `approx_equal` |
| core/coordmanager.py: constructor and validators, update, select/order, sort, snap, drop, set_dims, rename, squeeze, decimate, flip, transpose, equals | Model/CoordManager, PatchOps, Equality, Merge | units, `to_summary`, display, `update_from_attrs` |
| core/patch.py, proc/basic.py, proc/coords.py, proc/resample.py (decimate) | Model/CoordManager, PatchOps; `where` in Model/Where | `standardize` |
| proc/filter.py: slope_filter | Model/Slope | units of the limits, nan and infinities in the data, `notch` |
| proc/filter.py: pass_filter, notch_filter | Model/PassFilter | the recursive filters themselves (a parameter: any function of a line), float32, notches at nan |
| proc/filter.py: median_filter, savgol_filter, gaussian_filter | Model/WindowFilter | the Savitzky-Golay and Gaussian filters of a line (parameters), NaN, integer data |
| transform/hilbert.py | Model/Hilbert | complex data (scipy refuses them), negative powers, functions as dim_reduce, the data_type attribute, float rounding |
| transform/dispersion.py | Model/Dispersion | units of distance other than metres, attributes and units of the result, NaN and infinite samples, float rounding |
| transform/fourier.py: `stft` and `istft` | Model/Stft | units, attributes, float rounding, complex windows, the windows made from names and the detrending of frames (parameters) |
| proc/whiten.py | Model/Whiten | units of limits, NaN where the smoothed spectrum is zero, smoothing along unevenly sampled frequencies, float rounding |
| transform/kurtosis.py, transform/stalta.py | Model/Trigger | NaN samples, float rounding (cumulative sums are sums of the window), moving the dimension to the front and back |
| transform/taup.py | Model/TauP | conversion of units (metres and seconds are assumed), velocities with units |
| proc/resample.py (interpolate, resample) | Model/Resample | splines (integer `kind`), the Fourier method itself (a parameter: any function of a line and a number), data of one sample |
| utils/moving.py, proc/hampel.py | Model/Moving | NaN in data, the standard deviation itself (a parameter), warnings |
| proc/basic.py: normalize, standardize, demean, demedian; proc/detrend.py | Model/Scale | float error, complex data, infinities |
| core/spool.py: tables, indexing, slicing, splitting, mapping, merging | Model/Spool, Chunk, Merge, SpoolSelect, FileSpool | displays; `select` followed by loading rows of several sources; formats other than DASDAE |
| utils/chunk.py, utils/pd.py (filters, trimming, overlaps) | Model/Chunk, Filter | dtype juggling of data frames |
| io/indexer.py, utils/hdf5.py (index table), utils/misc.py `_iter_filesystem` | Model/Index | HDF5 itself; concurrent writers are histories of whole operations |
| io/core.py: registry of formats, detection; utils/io.py: resources | Model/Registry, Resource | warnings, the readers themselves |
| io/dasdae: write, read, names of patches | Model/Dasdae | scanning, index in the file, a crash in the middle of writing |
| utils/array.py: units of binary and unary functions; utils/patch.py `_merge_models` | Model/UnitArith | temperatures with offsets, powers, floor division and remainders of quantities |
| io/febus/a1utils.py | Model/Reader, Febus | HDF5 itself, `_get_block_time`, attributes of the patches, float error of times |
| io/tdms/utils.py `_get_data` and coordinates, core.py `read` | Model/Tdms | parsing of the header, byte offsets (counted in samples) |
| io/sintela_binary/utils.py | Model/Sintela | attributes, 32-bit overflow, headers of later packets (the code does not read them) |
| io/terra15 | Model/Terra15 | attributes, versions of the format, files with fewer than two filled rows, unfilled rows before filled ones |
| io/prodml | Model/ProdML, Model/Labelled | attributes not needed for coordinates, parsing of XML-like strings and of time strings (a string is what the clock shows and its zone), recognising the format |
| io/ap_sensing, io/silixah5, io/neubrex, io/gdr, io/optodas, io/dasvader | Model/Instruments, Model/Labelled | attributes not needed for coordinates, parsing of time strings, units, HDF5 references, recognising the formats |
| utils/patch.py `stack_patches`, `check_dims`, `check_coords` | Model/Stack | warnings, units, types of samples other than by their addition |
| io/h5simple | Model/H5Simple | attributes other than `dims`, which arrays are data or times, arrays of labels of more than one dimension, recognising the format |
| io/segy | Model/Segy | calendar fields (a whole second stands for them), 16-bit headers, segyio itself, recognising the format |
| io/xml_binary, utils/xml.py | Model/XmlBinary, XmlDict | parsing of XML, attributes, recognising the format, files of other sample types |
| io/dashdf5 | Model/DasHdf5 | attributes and CRS, HDF5 itself, recognising the format |
| io/sr4731 | Model/Sor | decoding of names and text fields, attributes, wavelength and display range, selection, `get_format` |
| io/sentek | Model/Sentek | `get_format`, float32 rounding, numbers other than digits in names, attributes, limits of reading (left to the spool) |
| utils/array.py `apply_array_func` | Model/ArrayFunc, Model/Aggregate | units, results which are no arrays |
| io/rsf, io/wav (writing) | Model/Export | printing of numbers, float32, detrending and normalizing of traces (a parameter), resampling, files of several channels |
| utils/pd.py and utils/io.py: data frames, xarray, ObsPy | Model/Convert, Obspy | attributes, what pandas, xarray and ObsPy do themselves |
| transform/strain.py: radians_to_strain | Model/Radians | the registry of units (a parameter), other attributes, float error |
| utils/attrs.py `combine_patch_attrs` | Model/Attrs | dictionaries instead of `PatchAttrs` |
| core/attrs.py, utils/attrs.py `separate_coord_info`, core/patch.py constructor, `update_attrs`, `update` | Model/PatchAttrs | units given as attributes, defaults, validation of single attributes, several limits of one coordinate in the theorems |
| utils/patch.py: history, checks, dimension arguments, windows, concatenation, merging, stacking | Model/History, Window, Concat, Merge | `validate_call`, formatting of arguments |
| utils/time.py | Model/Time | parsing of ISO dates, overflow |
| utils/array.py: aggregations, arithmetic; utils/patch.py: alignment of patches | Model/Aggregate, Arith | units, attributes |
| transform/differentiate.py, integrate.py, strain.py (both strain rates) | Model/Calculus | order other than 2 (findiff), units, float error |
| transform/fourier.py: `dft` and `idft` with output "FFT" | Model/Fourier | units, float error (data are exact complex numbers), other outputs; `next_fast_len` is a parameter |
| proc/mute.py | Model/Mute | smoothing, rounding of times to floats, limits with units |
| units.py, proc/units.py, units of coordinates | Model/Units | parsing and printing of units, logarithmic units, powers of units with an offset; coordinates with more than one dimension |
| utils/namespace.py, utils/plugins.py | Model/Namespace | warnings, wrapping of methods, several groups |
| utils/gaps.py, utils/mapping.py, proc/align.py, proc/taper.py, proc/correlate.py, proc/rolling.py | Model/Gaps, Frozen, Align, Taper, Correlate, Window | numerical values of windows and transforms |

Not modelled at all: pickles, the rest of transform/* (`fbe`; of `spectrogram` only labels and slices), the sobel and wiener filters and other numerical signal
processing, visualisation, examples, downloading, documentation helpers.

## Observations without a theorem

* `concatenate` silently drops incompatible patches unless `check_behavior="raise"`; `check_dims(intersection=True)` uses the union.
* `Patch.select` takes a shortcut which makes a sample slice with step -1 on a dimension without coordinate a no-op.
* `update(step=...)` within 1e-5 of the old step is ignored, as is `update(values=...)` close to the old values.
* `close_all` stops at the first `close` which raises.
* `combine_patch_attrs` changes the coordinates in dictionaries of the caller.
* whiten, slope_filter, fbe, tau_p and dispersion_phase_shift leave extra history entries, for the same reason as `C40_roll_violated`.
* `to_int` returns arrays of floats unchanged; `to_timedelta64` of strings keeps units other than nanoseconds.
* RSF's `preferred_extensions` is a string rather than a tuple, so its characters are the extensions.
* Patches completely overlapped by earlier ones are dropped when merging; length-one axes are broadcast by the streaming merge.
* The Hampel filter's "MAD" is the median of the differences of each sample of the window from *its own* moving median, not from the median of the window (the usual definition); `C71_rule` states what the code does.
* whiten pads to the next fast length and cuts the result, so whitened patches are only white when their length is fast (`C82_padded_violated`); dead traces become spikes (`C82_dead_violated`); `idft()` without a dimension also transforms back other transformed dimensions (`C82_domain_violated`).
* `stft` labels the slices of descending dimensions in the wrong direction (`C83_descending_violated`); `istft` drops the dimensions of coordinates, so that it raises if there is any coordinate besides those of the dimensions (`C83_extra_coordinate_violated`); the window is kept as a coordinate, so nearly even windows are altered (`C83_window_violated`).
* Intervals of `select` which end before they begin are turned round (`C84_crossing_violated`): `select(time=(-2, 0), relative=True)` is all but the last two seconds. The docstring of `CoordManager.select` says that `relative` does nothing for arrays; it does.
* Attributes whose names begin like a dimension are taken for coordinate information (`C85_prefix_violated`, `C85_minutes_violated`), those of dimensions with underscores are misread (`C85_underscore_violated`); a dictionary of attributes given to `Patch` without `dims` overwrites `gauge_length` by `gauge_length_units` (`C85_overwrite_violated`), and loses units of some dimensions when it has limits of others (`C85_units_violated`).
* `patch ** 2`, `np.sqrt(patch)`, `np.var` and others keep the units of the data, `patch * patch` does not (`C86_power_violated`); patches whose data have different units cannot be combined at all, not even multiplied (`C86_different_violated`).
* The Febus reader compares limits of time with labels one step too late (`C87_time_violated`) and cannot read with limits of time and distance (`C87_both_violated`).
* The TDMS reader mixes the samples of different chunks (`C88_chunks_violated`), and cannot read files of full chunks only (`C88_full_violated`) or of several segments (`C88_segments_violated`).
* The ProdML reader drops time zones ahead of UTC (`C94_zone_violated`), ignores the array of times when the end attribute is wrong by more than ten samples (`C94_end_violated`) and fails for some lengths and spacings (`C94_unlucky_violated`).
* Steps rounded to nanoseconds make labels drift by up to half a nanosecond per sample (`C95_drift_violated`); the DASVader reader then finds the wrong number of labels and fails (`C95_vader_violated`, `C95_vader_iff`).
* `stack_patches` adds patches whose dimensions differ from the first, because `check_dims` returns True in any case: transposed patches are added sample by wrong sample (`C96_dims_violated`), patches with fewer dimensions are broadcast (`C96_broadcast_violated`).
* `coords_from_df` gives missing values everywhere for a table whose rows descend (`C97_descending_violated`) and cannot use times without `extrapolate=True` (`C97_time_violated`); `add_distance_to` overwrites the coordinate of an origin given by "distance" (`C97_distance_violated`).
- C98: `snap_coords(reverse=True)` with a label that occurs twice. The samples are sorted in descending order, but the sorted labels are a plain array (neither ascending nor strictly descending), and `snap` of a plain array always goes from the lowest to the highest label. Data and labels end up in opposite orders (`C98_reverse_violated`). When all labels are equal the call ends in an AssertionError.
- C99: `dataframe_to_patch(df, attrs)` accepts `PatchAttrs` by its signature, but takes `attrs.get("dims")`, there one string with commas, for the sequence of the names: its characters become names (`C99_attrs_violated`). `patch_to_xarray` gives xarray a coordinate of no dimension as `((), array)`, which xarray refuses (`C99_unattached_violated`).
- C100: the header of a directory of raw files is cached by its path for the life of the process (`lru_cache` on `_read_xml_metadata`), so a rewritten header is not seen (`C100_stale_violated`); the stride of a zone is parsed and never used, so that a file with every second channel fails its size check (`C100_stride_violated`).
- C101: the reader of DAS-HDF5 files finds the order of the dimensions by comparing shapes. For files with as many channels as times this can not work, and the first dimension is always taken for the channels (`C101_square_violated`).
- C102: `radians_to_strain` checks `gauge is None or gauge <= 0`; NaN, the default of the attribute `gauge_length` of several formats, passes, and all samples become NaN without an error (`C102_nan_violated`).
- C103: writing RSF asks every dimension for units (`get_coord(x).units.units`), so a patch with a dimension without units ends in an AttributeError (`C103_refused`), which the documentation does not say.
- C104: the files of a WAV directory are named by the label. Two channels with the same label get the same name, and the earlier one is overwritten without a warning (`C104_lost_violated`).
- C105: `patch_to_obspy` takes the lowest time as the start of every trace and gives the (then negative) rate; descending times come back starting at the lowest one and going down from there (`C105_backwards_violated`). `obspy_to_patch` takes the times as floats of seconds and multiplies by 10⁹ as floats; `get_coord` then takes the median difference of the rounded times for the step, so that in the model a patch with 1 kHz comes back with the step 999936 ns and its labels drift away from the times (`C105_drift_violated`). A patch with time as its only dimension ends in a StopIteration (`C105_single_violated`), because the check `not has_time and is_2d` does not test for two dimensions.
- C106: `apply_array_func` keeps the coordinates whenever the result has the shape of the patch. `np.transpose` of a patch with as many times as distances thus gives samples the labels of others (`C106_moved_violated`), and so do `np.flip`, `np.roll` and `np.sort`; functions of several patches look at the labels of the first only (`C106_others_violated`), unlike the operators (C60).
- C107: `_get_time_from_file_name` formats seconds with `:02f`, which does not pad to two digits before the point. For the first ten seconds of every minute numpy gets "...:2.124000" and refuses it (`C107_seconds_violated`). The steps of distance and time are quotients by the number of samples rather than of intervals (`C107_spacing_violated`); the step of time is truncated to nanoseconds, which can change the number of labels (`C107_truncated_violated`). The reader also seeks to positions counted from the start of the file (`fid.seek(int(sensor_num - 1) * 4)`) although the distances begin after six numbers of header, so that "last" distance and the offsets of time are taken from six numbers too early; the layout is not documented, and the model takes the positions as they are in the code.
* `rfft` (deprecated) gives `np.fft.rfftfreq` the sampling rate instead of the spacing: its frequencies are wrong unless samples are one unit apart (`C109_rfft_iff`). `spectrogram` adds negative times to the least label of descending coordinates (`C109_descending_violated`).
* Classes registered as namespaces do not reach objects which had an older one, and are replaced by those of entry points when first read (`C111_replaced_violated`, `C111_entry_point_violated`).

## Where the code does not do what the property says

Each is a theorem with a concrete witness (in the model). The property's other theorems state what does hold.

* `C01_int_length_violated`: for Python ints: asking for 100000 samples from 0 to 299999 truncates the step 2.99999 to 2 and delivers 150000 samples (coords.py 1201-1202).
* `C04_labels_violated`: for labels: selecting from a monotonic coordinate relabels a surviving sample, 1000 becomes 1001.
* `C06_sort_labels_violated`: for labels of nearly even data: sorting 2001, 0, 1000 gives labels 0, 1001, 2002.
* `C07_order_samples_violated`: for negative sample numbers: -3 is the first of three samples but is dropped, while -1 and -2 are accepted.
* `C07_range_labels_violated`: for labels of evenly sampled coordinates: asking 0..2001 for 0, 1000 and 2001 labels the picked samples 0, 1001 and 2002.
* `C08_close_violated`: (nearly equal coordinates): labels which differ by less than a hundred-thousandth count as equal, so that both coordinates are returned as they are, though they have only two of three labels in common.
* `C08_violated`: the two aligned coordinates need not be equal. 0..2001 aligned to 0, 1000, 2001, 5000 gives labels 0, 1001, 2002 on one side and 0, 1000, 2001 on the other.
* `C09_change_length_violated`: for numeric coordinates: lengthening 0, 1, ..., 999999 by one sample fails with an AssertionError because `update` considers the new stop "close" to the old one.
* `C11_first_label_violated`: on any strictly increasing array coordinate the index returned for its own first label is 1, not 0 - past the end for a single sample.
* `C11_out_of_bounds_violated`: with `allow_out_of_bounds`: on the coordinate 0, 1, ..., 9 the value 10.5 gets index 10, although the next sample of the extended coordinate is 11; and the in-bounds value 2.5 gets index 3 when asked alone but 2 when asked together with an out-of-bounds value.
* `C12_descending_violated`: on descending coordinates: `update_limits(min=100)` on 14, 11, 8, 5 gives 100, 97, 94, 91 (whose minimum is 91), and `update_limits(max=100)` gives 109, 106, 103, 100.
* `C12_min_max_violated`: for both limits: `update_limits(min=a, max=b)` treats `b` as the exclusive stop, so the maximum is one step short of `b`, for every ascending coordinate and all `a < b`.
* `C13_snap_time_violated`: for time coordinates: snapping 0, 3, 4, 10 ns gives 0, 3, 6, 9 ns - the maximum is 9, not 10; and if the span is below half a nanosecond per sample snap fails with AssertionError.
* `C14_raises_violated`: building a coordinate from a legitimate strictly increasing float array can fail with a bare AssertionError (the even grid has one sample too many and `change_length` cannot shorten it).
* `C14_snap_violated`: nearly even data is silently replaced by an even grid, here in integers. The labels of the second and third sample change.
* `C15_negative_violated`: with negative sample numbers the slice selects nothing, or everything in the wrong order. `order(samples=True)` reaches this: the labels are right, the data indexer is not.
* `C16_distinct_violated`: `rename_coord(time="distance")` and `set_dims(time="distance")` succeed and leave the manager with the same dimension twice.
* `C17_drift_violated`: (floats which are not evenly sampled): the patch can be built and all of its samples selected, but selecting the samples below 1500000 raises an AssertionError, because what remains is nearly even (see `C14_raises_violated`).
* `C17_name_violated`: (coordinate names): a coordinate whose name begins like a dimension and contains `_min` (here `time_minute`) makes every selection raise, because it is mistaken for a new limit of the dimension.
* `C17_negative_order_violated`: (negative sample numbers): ordering by the last two samples of a dimension raises, because the coordinate has two samples and the data none (see `C15_negative_violated`).
* `C17_sort_class_violated`: (after sorting by an attached coordinate): `sort_coords("y")` leaves the dimension's coordinate in the class of strictly monotonic coordinates although its labels are now 20, 40, 1; it still claims to be sorted, and later selections search it as if it were.
* `C17_twice_violated`: (coordinate attached twice): only its first axis is cut, so the selection raises.
* `C19_swap_violated`: Exchanging the names of two coordinates: the exchange of two dimensions raises; the exchange of two coordinates that are not dimensions loses one of them and leaves the other as it was; renaming one coordinate to the name of another silently drops the latter.
* `C20_keep_partial_violated`: with `keep_partial=True`, 11 samples 0..10 in chunks of 5 samples lose sample 10, and a single sample is lost altogether.
* `C20_off_grid_violated`: for chunk lengths that are not a multiple of the step: 0..9 in chunks of 2.5 gives intervals which contain neither sample 2 nor sample 7.
* `C20_one_sample_violated`: for chunks of one sample: 0..4 in chunks of one sample loses sample 4, even though its chunk is complete.
* `C21_mixed_steps_violated`: when steps differ: whether the row starting at 12 is separated from the first depends on which of the two rows starting at 12 comes first in the table.
* `C21_other_station_violated`: across group columns: continuity is computed over the whole table (chunk.py 458-461) before rows are split by station, so a row of another station bridges a gap. Station X has rows [0, 10] and [100, 110] only; with station Y's row [5, 105] all three get the same continuity number, and X's two rows are put in one group in spite of a gap of 90 steps.
* `C22_duplicate_violated`: by duplicated rows: rows A = [0,10], A again and B = [11,20] merged into one chunk give an instruction with the inverted interval (11, 10) for the second A. `patch.select` puts reversed limits in order (coords.py 729-738), so it selects sample 10 of A a second time and the merged patch has 22 samples instead of 21.
* `C24_count_violated`: the number of parts asked for is not always the number obtained: nine patches in six parts come back in five.
* `C24_nonpositive_violated`: a size that is not positive, or a negative count, is not rejected: the generator never ends, however many steps it is given (here stated of the loop itself). A count of zero is a TypeError.
* `C26_ellipsis_violated`: asking for all times with `time=...` is a TypeError, although `time=(..., ...)` and `time=None` are accepted.
* `C26_ignore_bad_violated`: with `ignore_bad_kwargs=True` unknown keys are dropped, but one ending in `_min` or `_max` raises KeyError.
* `C26_none_violated`: `None` (or `...`) for a range means no condition, but for a column it matches nothing.
* `C26_range_forgotten_violated`: on the directory index: a range for `time` given together with `time_min` is forgotten, so rows outside it are kept.
* `C28_contained_violated`: by a row contained in an earlier one: rows are only compared with their predecessor, so [0,10], [2,5], [6,20] becomes [0,10], [11,5], [6,20]: the first and third still overlap and the second is inverted.
* `C28_off_grid_violated`: for rows on different grids: samples 0, 1, ..., 10 and 10, 10.5 + ..: the second row [9.5, 12.5] (samples 9.5, 10.5, 11.5, 12.5) is cut to [11, 12.5], which loses sample 10.5 covered by no other row.
* `C29_crash_violated`: (repeated rows): in the history above, the crash after the rows were appended and before the time stamp was written makes the next update append them again.
* `C29_delete_violated`: (deleted files): the rows of a file that has been deleted stay.
* `C29_millisecond_violated`: (repeated rows without a crash): a file written less than a millisecond before an update is indexed again by the next one.
* `C29_old_violated`: (old modification time): a file that is copied into the directory with its modification time kept is never indexed.
* `C29_stale_violated`: (stale rows): the rows of a file that has been replaced stay.
* `C30_edge_violated`: A row that covers the window with one second to spare on both sides is missed.
* `C30_zero_violated`: The limit 0 (1970-01-01) counts as no limit.
* `C31_edge_violated`: (rows on the edge): whether a row on the edge of the window is found depends on the queries made before.
* `C31_external_violated`: (another indexer on the same index file): its additions are not seen.
* `C31_keyword_violated`: (keywords of the file reader): after an unrestricted query the same query with such a keyword gets the cached answer, whatever the keyword asks for.
* `C32_extension_violated`: among the readers with the extension the one registered first is tried first, though there is a newer version (both recognise the file).
* `C32_late_violated`: a reader registered after the first detection is not asked (unless it has the extension).
* `C33_hidden_violated`: registering one version of an installed format by hand hides the installed ones.
* `C33_newest_violated`: versions are compared as strings. Of the versions 8, 9, 10 and 11 of OptoDAS (io/optodas), 9 counts as newest.
* `C33_order_violated`: of two readers with the same name and version the first registered is found, so the order matters.
* `C33_stale_violated`: a lookup before a newer version is registered goes on giving the older one.
* `C34_again_violated`: leaving a manager does not empty its cache, so it is closed again when it is deleted, and a request in between gives the closed handle.
* `C34_borrowed_violated`: a manager made from an open handle, which it did not open, closes it; once for each type asked for.
* `C35_data_units_violated`: A coordinate called `data` is given the units of the data.
* `C35_lost_violated`: Patches less than a second apart get the same name, and so do all patches of one file; the later one replaces the earlier.
* `C35_mangled_violated`: Names containing the prefixes of the format are not what they were; a slash in the name of a coordinate or a patch raises an error.
* `C35_mixture_violated`: A patch written under a name that is taken is read back with attributes and coordinates of the patch it replaced.
* `C35_step_violated`: A coordinate with a single sample loses its step if its name contains an underscore.
* `C35_units_violated`: The units of a coordinate whose name contains an underscore, or is `d`, are lost.
* `C36_keep_first_violated`: if no set has the merged coordinate, `keep_first` forgets every attribute.
* `C36_limits_violated`: with `drop` the limits of the merged coordinate are lost if another coordinate differs.
* `C36_nan_violated`: with `drop` an attribute that is NaN everywhere is dropped if any other attribute differs, and kept otherwise.
* `C36_raise_violated`: `raise` ignores sets without the merged coordinate, even if their attributes disagree.
* `C37_attached_violated`: (other coordinates of the dimension): the marks `[5, 7]` and `[5, 7]` of the samples become the distances `[0, 1, 2, 3]`.
* `C37_int_violated`: (whole numbers): unevenly sampled patches are merged if their labels are times, but not if they are whole numbers.
* `C37_limits_violated`: (the same limits): only the limits and the steps are compared, and a missing step agrees with any. The samples at 1 are lost when patches with the same limits are merged, evenly sampled or not.
* `C37_order_violated`: (turned patches): merged all at once, patches with their dimensions in another order raise; one at a time they are merged.
* `C37_snap_violated`: (snapping): of two patches a little apart, as the tolerance of `chunk` allows, the labels of the second are moved. Without snapping they are kept.
* `C38_nearest_violated`: for times of today the result need not be the nearest number of nanoseconds.
* `C38_roundtrip_violated`: times of today do not survive the conversion to seconds and back.
* `C38_view_violated`: an array of datetimes that are not in nanoseconds becomes wrong durations.
* `C38_words_violated`: the usual short unit names are not read.
* `C39_factor_violated`: for gap factors below 1: with the samples 0, 10, 19 and the factor 1/2, each spacing is a gap although it is shorter than (or as long as) the step used for the cells, and the edges run backwards.
* `C39_times_violated`: for datetimes one nanosecond apart: half the step is truncated to zero and the first two edges coincide.
* `C40_attr_violated`: a required value of an attribute that does not exist raises AttributeError, not PatchAttributeError.
* `C40_roll_violated`: `roll` with `update_coord=True` is one call but leaves two entries.
* `C40_text_violated`: a history that is a single string is split into its characters by the next recorded function.
* `C41_violated`: (two corner cases). A dimension called `dim` cannot be asked for by keyword. And naming one dimension twice passes as "exactly one dimension" although two entries are returned.
* `C42_negative_violated`: a negative window is not rejected; since it counts from the end of the coordinate, a window of -1 units becomes one of three samples. On a decreasing coordinate every window becomes a negative number of samples.
* `C42_odd_violated`: with `enforce_lt_coord` and an odd size required, a window as long as the coordinate is enlarged beyond it (five samples along a dimension of four).
* `C43_centre_violated`: with `center=True`, a window of three samples and a step of two, the value at each label is not that of the window centred there but of the one ending there (the same values as without centring).
* `C44_fill_violated`: With a fill value which is an integer the result has integer type: the data lose their fractions.
* `C44_others_violated`: How far a trace is moved depends on the other traces: a shift of 1, a third of the step, moves it by one sample, but not at all if another trace is shifted by more than the length of the coordinate.
* `C44_raises_violated`: No time is common to all traces if they are moved apart by more than their length: `valid` raises a `ValueError` then, although a result with no samples is given if they are moved by exactly their length. A decreasing coordinate cannot be aligned.
* `C45_flip_violated`: (two dimensions flipped at once): the sample with latitude 13 is in the corner after flipping both dimensions, but the two dimensional coordinate `lat` has only been flipped along the last of them.
* `C45_pad_violated`: (decreasing labels): a patch with decreasing labels cannot be padded; the new labels are counted from the smallest label towards smaller ones, so that there are too few.
* `C45_roll_violated`: (other coordinates): rolling with `update_coord=True` moves the labels of the dimension but not those of another coordinate attached to it: the sample at distance 5 was at depth 9 and is now said to be at depth 4.
* `C46_decreasing_violated`: Decreasing coordinates cannot be tapered.
* `C46_ends_violated`: A taper of length zero at the end raises, one at the start touches the first sample. A taper over all of the coordinate is possible at the start but not at the end.
* `C46_invert_violated`: Inverting a range which is empty sets everything to zero, where nothing should be.
* `C46_negative_violated`: A negative length is not rejected: a tenth of the coordinate, negative, tapers all but a tenth.
* `C46_open_end_violated`: `None` at the end of four values should leave everything up to the end alone, but the last sample becomes zero.
* `C46_overlap_violated`: Windows which overlap are accepted, within one range (the rising one may end after the falling one began) and for different ranges; then samples are multiplied with more than one.
* `C48_negative_violated`: (negative group size): nothing is raised and all patches are lost. A group size of zero raises.
* `C49_asymmetric_violated`: equality is not symmetric: the tolerance is relative to the labels of the second patch.
* `C49_attachment_violated`: patches are equal although an extra coordinate is attached to different dimensions, and although the dimensions' coordinates have different units.
* `C49_class_violated`: objects of different classes with the same attributes are equal.
* `C49_nan_violated`: a patch with one NaN sample does not equal itself.
* `C49_null_violated`: a missing label equals every label, so that two patches with different labels are both equal to a third (equality is not transitive).
* `C50_new_violated`: `new` fails if a key is not a string.
* `C51_integer_violated`: (integer coordinates): the largest label is taken for the length of a coordinate without labels; the patch cannot be made. With `1` as the largest label, the label is lost.
* `C51_keepdims_violated`: (`keepdims=True`): the axes are expanded once more and the patch cannot be made.
* `C52_negative_violated`: (negative factors are accepted): decimating by -1 reverses the data and the dimension, but not the other coordinates attached to it: the sample at distance 14, which was at depth 1, is now said to be at depth 9.
* `C53_long_violated`: Any odd number of float samples from 200001 on is refused too: the last lag is then close to the next one.
* `C53_name_violated`: a coordinate which already has the name of the lag is silently replaced.
* `C53_short_violated`: A single sample, or an odd number of samples with steps that `np.isclose` takes for zero (nanometres, say), is refused.
* `C54_dot_violated`: (directories of a relative base path): with base path "." no directory is handed out at all, not even those that are not hidden, because the test for a leading dot looks at the whole path.
* `C55_chunk_after_array_violated`: an array selection leaves the source table alone, and `chunk` works on the source table: after selecting the first of two patches by an array, chunking still sees both; a slice does not.
* `C55_chunked_slice_violated`: for chunked spools: slicing duplicates the row of a source that feeds two chunks, the join of instructions with sources then pairs each of its instructions with both copies, and the patch has its samples twice: `spool[1]` is 7..13 but `spool[0:2][1]` is 7,8,9,7,8,9,10..13. (Duplicates are only removed when a patch has more than ten pieces.)
* `C55_negative_violated`: positions between `-2 * len` and `-len - 1` wrap around a second time instead of raising IndexError: the fourth from the end of three patches is the last one.
* `C56_squeeze_violated`: squeezing a patch with a single sample raises, because a manager without dimensions claims the shape `(0,)` while the data has the shape `()`. And squeezing a patch with an empty dimension and one of length one drops both from the coordinates but only one from the data: the result has no dimension and data of one dimension.
* `C59_step_violated`: a part that is not evenly sampled is ignored: the merged coordinate gets the step of the other part.
* `C60_close_violated`: (distances are compared with the tolerance of `np.isclose`): the sample at 3000001 is added to that at 3000005, because all labels of one patch are close to those of the other.
* `C60_reordered_violated`: (other coordinates): if the labels are the same in another order the data are reordered and the other coordinates are not: the sample at distance 8 was at depth 1 in both patches and is at depth 4 in the result.
* `C60_replaced_violated`: (without `Joinable.fresh`): a coordinate of the first patch that is a dimension of the second is replaced by this dimension: the depths of the samples are gone, every sample is combined with every depth.
* `C60_second_violated`: (not symmetric): a coordinate that only the second patch has is lost, one that only the first has is kept.
* `C60_transpose_violated`: (order of dimensions): a patch cannot be added to its transpose.
* `C61_int_violated`: (integers with strides): with `step=2` the derivative of integers is truncated, here from one half to nothing.
* `C62_int_violated`: (integers): the integral of integers is truncated, here from one half to nothing.
* `C62_uneven_violated`: (uneven dimension that is not the last): the distances between samples are paired with the last dimension. The integral of the constant 1 over `x = 0, 1, 3` should be 0, 1, 3. With two samples along the last dimension the result is wrong, with four it raises; the definite integral is right.
* `C63_descending_violated`: C63 fails for evenly sampled dimensions with descending labels: the transform with padding (the default) raises.
* `C64_descending_violated`: C64 fails: a real transform along descending labels has no inverse.
* `C64_single_violated`: C64 fails: along a dimension of one sample, the inverse takes the transform of complex data as one of real data, and the imaginary part is lost.
* `C64_stays_padded_violated`: C64 fails: after a transform with padding over one dimension and one without padding over another, the inverse keeps the padding.
* `C64_stepwise_violated`: C64 fails: after a transform with padding over two dimensions, the inverse over one and then over the other keeps the padding of the second.
* `C64_two_single_violated`: C64 fails: two dimensions of one sample each are both taken as real, which is an AssertionError.
* `C64_unpadded_violated`: C64 fails: with the two transforms in the other order, the inverse raises a KeyError.
* `C65_flipped_violated`: (flipped dimension): after flipping the distance, as the documentation advises for an origin at the far end, nothing is muted between two velocities, and with a velocity of zero the mute raises. The sample 10 metres and one second from the origin should be muted.
* `C65_order_violated`: (order of the dimensions): the same data with the time first. The velocities between 0 and 12 are not muted where the distance is first in the arguments and second in the patch, as values along a dimension are measured from the start of another one.
* `C65_relative_violated`: (relative to the end): lines from the end are measured along the wrong dimension too. Both mute the samples later than about one second before the end.
* `C65_small_violated`: (small extents): between 1000 and 4000 metres per second lies the sample at two millimetres and one microsecond, but on such a patch nothing is muted.
* `C66_history_violated`: With temperatures the outcome depends on what was converted before: the results are cached under the quantities, and 1 °C is 274.15 K.
* `C66_labels_violated`: Labels change their meaning where the new numbers are small: wavelengths of 1550, 1551 and 1553 nm become 1550, 1552 and 1554 nm in metres, evenly spaced.
* `C66_reduced_violated`: The units of a patch with a dimension that has lost its labels (after averaging over it, say) cannot be simplified, and that dimension cannot be given units.
* `C66_set_violated`: Setting the units of a coordinate removes the units of the data.
* `C66_simplify_violated`: Simplifying the units of temperatures multiplies them: 20 °C become 5483 K (not 293.15 K).
* `C66_time_violated`: The units of times are converted to those of a length without an error, and nothing is changed.
* `C66_unit_history_violated`: Whether a quantity is accepted as a unit depends on what was asked before: 1000 m are not, unless 1 km has been.
* `C66_zero_time_violated`: Times are always in seconds, but not if they are evenly spaced and begin with zero: these can be given in metres.
* `C67_angle_violated`: Angles have no dimension, so their rates are taken for lengths of a cycle: 2 to 5 cycles per milliradian become 1/5 to 1/2 cycles, and those per millionth of a radian.
* `C67_factor_violated`: A dimension with a factor in its units cannot be filtered with units, even with those of the dimension itself.
* `C67_open_end_violated`: An open end is not what becomes of an end further and further away: periods from any shortest one up to 10 s contain 1 Hz, periods up to 10 s do not.
* `C68_seconds_violated`: seconds.** The other functions of a patch take numbers for a time dimension as seconds. Here they are taken as nanoseconds and become the labels: the value of the field `t²` one second after the start is 1, but interpolating to `time=[1.0]` gives 0.000000001, in a patch whose time labels are floats.
* `C68_units_violated`: units.** The new coordinate has no units whatever units the old one had: unless the labels are times, they are lost.
* `C69_descending_violated`: descending labels.** Labels which descend need a negative step; if it does not fit the result has no samples.
* `C69_long_violated`: steps of long patches.** The number of samples for the step asked for is compared with the nearest whole number with a tolerance which grows with it. From about fifty thousand samples on any step is taken to fit, and the step of the result is another one: 100001 samples at a distance of 1, resampled to a distance of 3, get the distance 100001/33334, less than 3.
* `C69_times_violated`: times.** The times of the new samples lose their fractions of a nanosecond, and are then made even by a step which is a whole number of nanoseconds, or, if they are close, left uneven. Ten samples at seconds, resampled to seven, end at 8.571428574 s, and not 60/7 s = 8.571428571… s; the error grows with the number of samples. Ten samples at every tenth microsecond become unevenly sampled.
* `C70_ends_violated`: the engines do not agree at the ends. With bottleneck the sum of three at the first sample is that of the two first samples, and at the last one that of the three last samples, the same as at the sample before.
* `C70_even_violated`: with an even window the engines differ by one sample: at sample 4 of `3, 1, 4, 1, 5, 9` the sum of two is `5 + 9` with bottleneck and `1 + 5` with scipy.
* `C71_first_violated`: a spike in the first sample is not removed, with neither engine and in neither mode; with bottleneck, one in the second sample is not removed either.
* `C71_integers_violated`: integers of more than 24 bits are changed even if all of them are equal.
* `C72_constant_violated`: Standardizing a line of ones gives NaN, not zeros, though NaN was not there before.
* `C72_least_violated`: The least integer of 16 bits has the sign of a positive number after normalizing by "bit", as by "max" and "l1" where it is alone, and beside others it may become larger than one.
* `C73_min_violated`: **C73**, violated: `spool.select(gauge_min=3)` for a column `gauge` fails with a KeyError, because the table of instructions lacks the column, although the contents can be filtered by it.
* `C73_two_dims_violated`: **C73**, violated: when a patch has a coordinate of two dimensions, a `select` that cuts the time makes the spool unreadable, because the limits of that coordinate are passed, too; the same `select` on the patch works.
* `C73_unknown_violated`: **C73**, violated: a keyword that names nothing is accepted by `spool.select`. Loading then fails for the patches which were not cut, and ignores it for those which were.
* `C74_pattern_violated`: **C74**, violated: a tag with a character of patterns. As `[a]` matches `a` only, a file with one patch with the tag `[a]` gives nothing at all.
* `C74_same_extent_violated`: **C74**, violated: two patches of the same extent and attributes, such as the data before and after some processing. The first one is given twice.
* `C74_touching_violated`: **C74**, violated: two patches of a file share their sample at time 4 (as files written one after the other often do). The row of the second one then gives the last sample of the first.
* `C75_descending_violated`: **C75**, violated: the order of the traces matters. With descending distances, samples from the end of the record are added at its start.
* `C75_last_violated`: **C75**, violated at the end of the record: the transform of a single trace is the trace, without its last sample.
* `C75_order_violated`: **C75**, violated: a patch with dimensions time and distance is not transposed. It is refused, or, if it has as many traces as samples, its times are taken to be distances.
* `C75_uneven_violated`: **C75**, violated: with uneven distances the negative slownesses are wrong. Seen from the other end, a patch with distances 0, 10, 30 is one with distances 0, 20, 30, and its row of slowness -1/20 must be the row of slowness 1/20 there.
* `C76_complex_violated`: C76 fails for complex data: a filter that passes the slopes of all the waves loses the imaginary part.
* `C76_half_violated`: C76 fails: of a patch that was transformed along one of the dimensions only, the filter also returns this one transformed back.
* `C76_nan_violated`: C76 fails: the last two of four ascending limits may be equal, and then the mask is nan (zero divided by zero) for waves with this slope, here those of frequency zero: all the samples of the patch become nan.
* `C76_unsorted_violated`: C76 fails: limits that do not ascend are accepted when they are a list, because two lists are compared by their first difference.
* `C77_descending_violated`: C77 fails for every dimension with descending labels: no frequency is accepted, because the sampling rate is negative.
* `C77_edges_violated`: C77 fails at the ends of the range that the error messages call possible, zero and the Nyquist frequency: whatever the filter, they pass the check of dascore and are refused.
* `C77_open_violated`: C77 fails for `...`: a range that is open at both ends is refused as such if the ends are None, and gives an AssertionError if one of them is `...`.
* `C78_descending_violated`: **Violated**: along a dimension with descending labels no filter at all is applied, and no error is raised.
* `C78_even_violated`: **Violated**: with an even window the result is not the median, but the larger of the two middle values.
* `C78_savgol_violated`: **Violated**: filtering along two dimensions should be filtering along the one and then along the other. It is filtering along the second only.
* `C78_sigma_violated`: **Violated**: a standard deviation in the units of the dimension should be used as it is, but it is rounded up to whole samples. All deviations up to the step give the same result.
* `C79_causal_violated`: The recursive kurtosis does not update as the samples come in: a later sample changes the earlier values, by way of the variance of all samples.
* `C79_offset_violated`: The full statement, that the kurtosis does not change if a constant is added to the data, fails for the recursive method, which is the default: the running mean starts from zero.
* `C79_windows_violated`: A long window that exceeds the short one but has as many samples is accepted: the ratio is then one everywhere, whatever the data.
* `C80_faint_violated`: Without the limit on amplitudes C80 fails: four equal channels of a signal that is weaker than the limit make a stack that is not one of them.
* `C81_velocity_violated`: **C81**, violated: the shot is a plane wave of 6 m/s and 1/4 Hz, but in its column the image is zero at 6 m/s and one at 8 m/s; and the label of this column is 1/3 Hz.
* `C82_dead_violated`: C82 fails for dead traces: zeros are whitened to a spike at the first sample.
* `C82_domain_violated`: C82 fails: the whitened patch is not in the domain of the patch if that is transformed along another dimension, which is transformed back too.
* `C82_padded_violated`: C82 fails: a whitened patch is not white if the transform pads it. Thirteen equal samples are whitened to thirteen equal samples: their Fourier sums are zero at all frequencies of the transform other than zero.
* `C83_descending_violated`: C83 fails for descending labels: those of the slices ascend from the least one, although the slices follow the samples.
* `C83_extra_coordinate_violated`: C83 fails for the inverse if there is a coordinate which belongs to another dimension, but is not its own: it raises.
* `C83_transposed_violated`: C83 fails for the inverse after the dimensions are transposed: it raises.
* `C83_window_violated`: C83 fails for windows which are nearly evenly spaced: another window is kept, and the inverse would use that one.
* `C84_crossing_violated`: (limits that cross): an interval which ends before it begins is turned round. Three seconds after the start of a record of five seconds comes after three seconds before its end, so that nothing lies in between, and what lies in between the other way round is kept. The interval from two seconds before the end to the start, likewise, is all but the last two seconds.
* `C84_epoch_violated`: (times which start at zero): a range of times whose first label is zero has no units unless they are given, unlike every other coordinate of times, and then does not accept quantities: two seconds, here, are not two seconds.
* `C84_free_violated`: (coordinates of no dimension): two coordinates which belong to no dimension are taken to share one, and offsets for both are refused.
* `C84_zero_violated`: (offsets of temperatures): an offset is converted as if it were an amount. Five degrees above the lowest of some temperatures in kelvins become 278.15 kelvins above.
* `C85_describes_violated`: After `patch.update(attrs=patch.attrs)` the attributes describe the wrong coordinate, if another begins with the name of the dimension: `time_min` is that of `timestamp`; and `update_attrs(timestamp_min=3)` moves the time and leaves `timestamp`.
* `C85_dimension_violated`: A patch with one dimension cannot have an attribute of this name: `update_attrs(time=...)` raises.
* `C85_ignored_violated`: The limits of coordinates that are not dimensions are ignored, in silence.
* `C85_minutes_violated`: and `update_attrs(time_minutes=3)`, which is meant as an attribute, raises.
* `C85_overwrite_violated`: `Patch(data, coords, dims, attrs={"gauge_length": 10, "gauge_length_units": "m"})` has the gauge length "m".
* `C85_prefix_violated`: An attribute moves a dimension whose name it begins with: `update_attrs(timezone_min=3)` shifts the time.
* `C85_underscore_violated`: Dimensions with an underscore cannot be moved: for patches from `correlate`, `update_attrs(lag_time_min=3)` raises.
* `C85_units_violated`: `Patch(data, coords, dims, attrs={"time_min": 10, "distance_units": "m"})` moves the time, but loses the units.
* `C86_different_violated`: (patches in different units): two patches in metres and kilometres can not be added, although the kilometres can be added as a quantity; and a patch in metres can not be divided by one in seconds, although it can be divided by a quantity.
* `C86_function_violated`: (functions that do not keep proportions): `np.reciprocal` of twelve seconds is a twelfth of a second.
* `C86_number_violated`: (numbers without units): two is added to twelve kilometres as two kilometres, and to the same amount in metres as two metres; the results are different amounts.
* `C86_power_violated`: (powers): the square of a patch in metres has metres, that of a patch in kilometres has kilometres. The product of the patch with itself has square metres.
* `C86_zeros_violated`: (refusals depend on the data): metres are not added to numbers without units, unless all of these are zero.
* `C87_both_violated`: **C87 fails with limits of both**: between them lie rows and channels, but reading ends in an error.
* `C87_time_violated`: **C87 fails with limits of time.** Asked for everything from the time of the second sample on, the reader gives the first sample as well, labelled as the second; and asked for everything up to the time of the last sample it leaves the last one out.
* `C88_chunks_violated`: **C88 fails for files of several full chunks**: the samples are mixed.
* `C88_full_violated`: **C88 fails for files of full chunks.**
* `C88_segments_violated`: **C88 fails for files of several segments.**
* `C90_limits_violated`: **C90** (violated) With `snap_dims=False` the rows between two times cannot be read, though the times of the file tell which they are.
* `C90_unfilled_violated`: **C90** (violated) With `snap_dims=False` unfilled rows are read as samples of 1970, which a scan of the file does not tell.
* `C91_channel_violated`: **C91** (violated) Numbers of channels are lost, also those of a patch with a dimension `channel`.
* `C91_decreasing_violated`: **C91** (violated) A patch with decreasing times is read back with labels starting with its last one.
* `C91_empty_violated`: **C91** (violated) Limits without a channel between them are an error, though limits without a time between them give nothing.
* `C91_start_violated`: **C91** (violated) The fraction of a second a patch starts at is lost: all labels are shifted.
* `C91_step_violated`: **C91** (violated) A step of a few nanoseconds more than whole microseconds is accepted and lost.
* `C92_position_violated`: (a condition that is an array and fill samples that are a patch): aligning can change the order of the samples or drop some, and the condition is not changed with them. The condition is true for the first sample, at distance 8, but it is the sample at distance 1 that is kept; and a condition with the shape of the patch is refused when the other patch has fewer samples.
* `C92_transposed_violated`: (without `Overlays`): a condition with the same coordinates and the dimensions in another order is not transposed. The sample at distance 1 and channel 2 is replaced, although the condition is true there; arithmetic refuses these patches.
* `C93_drift_violated`: (small drift): a minute of a perfectly regular recording at a thousand samples per second whose clock is wrong by one in a million cannot be read at all, because cutting the distance of samples to nanoseconds loses more than a twentieth of a sample.
* `C93_other_violated`: (another array): an array of any other length makes reading fail.
* `C93_single_violated`: (one channel): a file with a single channel cannot be read by default, only without snapping.
* `C93_twice_violated`: (two labels of a dimension): a file in which the second dimension is labelled by channels and by distances cannot be read.
* `C94_band_violated`: (bands): in the standard the first locus of a band is numbered like those of the acquisition. Here the band of the loci 12 and 13 of an acquisition which begins with locus 10 is read under the distances of the loci 22 and 23.
* `C94_correction_violated`: (correction): a recording of 17 samples, 1024 of them a second. As the spacing is no whole number of nanoseconds the array of times is used, which is made evenly spaced by its median difference: the last label is seven microseconds late, although attributes and array give it exactly.
* `C94_end_violated`: (wrong end): the array gives one second per sample, the attribute ends after 100 seconds instead of 12. The array is ignored, as the attribute is wrong by more than ten samples.
* `C94_single_violated`: (one sample): a recording of a single sample makes reading the file fail.
* `C94_unlucky_violated`: (cut spacing): 2500 samples, 600 thousand of them a second, whose array agrees with the attributes. Cutting the spacing to nanoseconds loses two thirds of a nanosecond per sample, in total exactly one spacing. So there is one label too many, its time is the stored end and the array is not used: the file cannot be read.
* `C94_zone_violated`: (time zones): the recording starts at midnight UTC, which the file gives as 02:00+02:00 (and in its array of times). It is read as starting at 02:00.
* `C95_drift_violated`: (drift): at 7000 samples a second the fourth sample after the first is labelled 571428 ns, although 571429 ns is nearer to its time. Errors add up: after a million samples they are a whole sampling period.
* `C95_gdr_single_violated`: (GDR): a file with one time can only be read without snapping.
* `C95_gdr_violated`: (GDR): the time of the last sample is in the file, 2001 ns. It is read as 2000 ns.
* `C95_vader_violated`: (DASVader): a file with 60 000 samples, 7000 of them a second, cannot be read: there is one label too many.
* `C96_broadcast_violated`: (broadcasting): a patch without one of the dimensions is not left out either: it is added to every line. With another number of samples it is an error instead.
* `C96_descending_violated`: (descending): labels 6, 5, 4 become 0, -1, -2.
* `C96_dims_violated`: (dimensions): a patch whose dimensions are in another order is not left out. Its sample at time 0 and distance 1 (1) is added to that of the first at time 1 and distance 0 (10).
* `C96_times_violated`: (irregular times): labels of irregular times cannot be moved to zero, irregular numbers can.
* `C97_descending_violated`: (tables in another order): if the rows of the table descend, all values are missing, also at the labels which the table has.
* `C97_distance_violated`: (origins given by a distance along the fibre): the coordinate `shot_distance` of the origin is overwritten by the distances.
* `C97_time_violated`: (times): a table of times works only with `extrapolate=True`, otherwise it raises.
* `C98_reverse_violated`: (`reverse`, a label that occurs twice): the samples are put in descending order of their labels, the new labels in ascending order. The sample that was labelled 4 is labelled 1 afterwards.
* `C99_attrs_violated`: (attributes of a patch): the attributes given may be those of a patch, `PatchAttrs`. There the names of the dimensions are one string, whose characters are taken for the names: the frame that becomes a patch with the names in a tuple fails with them in `PatchAttrs`.
* `C99_unattached_violated`: (coordinates of no dimension): a patch with an array that belongs to no dimension, which patches may have, becomes no data array; xarray raises a ValueError.
* `C100_stale_violated`: (history). After that, whatever is written to the disk, reading goes on with the first header.
* `C100_stride_violated`: (every second channel): the header tells of a stride, but the distances are made without it. A file with the channels 1, 3 and 5 can not be read.
* `C101_square_violated`: (as many channels as times). Whatever the file says, the first dimension of its array is taken for the channels: every sample of an array stored with times first is given the channel of its time and the time of its channel.
* `C102_nan_violated`: (gauge length NaN, the default of the attributes of some formats): it is not refused, and all samples become NaN.
* `C104_lost_violated`: (a label that comes twice): the second channel is overwritten by the third.
* `C105_backwards_violated`: (descending times): the first sample, at 7 seconds, gets the lowest time, and the times go down from there.
* `C105_drift_violated`: (floats): the floats are within 128 nanoseconds of the times, whose distance is a millisecond. But the patch made of the stream has the distance 999936 nanoseconds, one of those that the floats have, and so every further sample is 64 nanoseconds more away from its time.
* `C105_single_violated`: (one dimension): a patch whose only dimension is time "must have a dimension named time", but fails.
* `C106_moved_violated`: (functions which move elements): `np.transpose` of a patch with as many times as distances gives a patch whose elements have labels of others: the sample of time 0 and distance 7 is now that of time 1 and distance 5. With other shapes it is refused.
* `C106_others_violated`: (several patches): the labels of all patches but the first are not looked at. A function of two patches with no label of time in common puts elements of different times together, where the operators on patches (C60) refuse or leave out what does not match.
* `C107_seconds_violated`: (the first ten seconds of every minute): the seconds are written with one digit, and numpy refuses the text. Such files can be neither read nor scanned.
* `C107_spacing_violated`: (distances): the last distance of the file is never the label of the last channel, because the number of channels is taken for the number of steps.
* `C107_truncated_violated`: (times): the step is cut down to nanoseconds. A second in 60000 measurements is 60003 steps of 16666 ns, and ten measurements in 19 ns are 19 steps of 1 ns; the number of labels is not that of the samples, and the patch cannot be made.
* `C109_descending_violated`: Labels of slices of a descending coordinate do not even lie among those of the samples.
* `C109_rfft_violated`: A patch of 8 samples, a quarter apart: label 1 should be 1/2, and is 1/32.
* `C111_entry_point_violated`: A class which is registered is replaced by that of an entry point as soon as it is asked for.
* `C111_replaced_violated`: A class which is registered is not used by objects which had an older one of that name.
