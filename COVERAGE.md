# Functions of PyEMD and the definitions that model them

Generated by `tools/coverage.py` from the citations in `lean/Verif/Model`. Names are relative to the namespace `PyEMD`.
Not listed: tests, examples, `__main__` demos.

## PyEMD/BEMD.py

| function | lines | model |
|---|---|---|
| `BEMD.__init__` | 47-54 | `Cfg2`, `BEMD.Cfg.default` |
| `BEMD.__call__` | 56-57 | *delegates to the main method with the same arguments* |
| `BEMD.extract_max_min_spline` | 59-78 | `BEMD.valuesAt`, `BEMD.splinePoints`, `BEMD.extractMaxMinSpline` |
| `BEMD.spline_points` | 80-88 | `Surface`, `BEMD.Ext`, `BEMD.splinePoints`, `Scipy.cubicKernel`, `Scipy.kernelMatrix`, `Rbf (module comment)` |
| `BEMD.find_extrema_positions` | 90-110 | `BEMD.sift` |
| `BEMD.extract_minima_positions` | 112-114 | `BEMD.extractMinimaPositions` |
| `BEMD.extract_maxima_positions` | 116-121 | `BEMD.Ext`, `BEMD.extractMaximaPositions`, `Skimage.dilate`, `Skimage.reconstruct` |
| `BEMD.end_condition` | 123-141 | `BEMD.loop` |
| `BEMD.check_proto_imf` | 143-182 | `Img.allclose`, `BEMD.checkProtoImf` |
| `BEMD.bemd` | 184-276 | `BEMD.sift`, `BEMD.loop`, `BEMD.bemd`, `MemoryImage (module comment)`, `MemImg.BEMD.sift`, `MemImg.BEMD.loop`, `MemImg.BEMD.bemd` |

## PyEMD/CEEMDAN.py

| function | lines | model |
|---|---|---|
| `CEEMDAN.__init__` | 116-146 | `CEEMDAN.Cfg`, `CEEMDAN.Obj`, `CEEMDAN.Obj.new`, `Rng`, `External (module comment)`, `Init (module comment)`, `Value`, `Init.pyBool`, `Init.noiseKind`, `Init.processes`, `Init.randomState`, `Init.ceemdan`, `Mem.CEEMDAN.Obj` |
| `CEEMDAN.__call__` | 148-151 | *delegates to the main method with the same arguments* |
| `CEEMDAN.__getstate__` | 153-157 | *part of the assumption on `multiprocessing.Pool`: a worker gets a copy of the attributes (without the pool)* |
| `CEEMDAN.generate_noise` | 159-193 | `CEEMDAN.noises`, `EEMD.generateNoise`, `Init.noiseKind` |
| `CEEMDAN.noise_seed` | 195-197 | `CEEMDAN.Obj.noiseSeed`, `Mem.CEEMDAN.Obj.noiseSeed` |
| `CEEMDAN.ceemdan` | 199-276 | `CEEMDAN.Obj`, `CEEMDAN.vdiv`, `CEEMDAN.vscale`, `CEEMDAN.noises`, `CEEMDAN.stageTrial`, `CEEMDAN.localMean`, `CEEMDAN.stages`, `CEEMDAN.body`, `CEEMDAN.Obj.ceemdan`, `CEEMDAN.Extern.decomposed`, `Mem.CEEMDAN.addNoise`, `Mem.CEEMDAN.lastRow`, `Mem.CEEMDAN.stageTrial`, `Mem.CEEMDAN.stageTrials`, `Mem.CEEMDAN.localMean`, `Mem.CEEMDAN.stages`, `Mem.CEEMDAN.body`, `Mem.CEEMDAN.newVecs`, `Mem.CEEMDAN.finish`, `Mem.CEEMDAN.Obj.ceemdan` |
| `CEEMDAN.end_condition` | 278-326 | `CEEMDAN.endCondition`, `Mem.CEEMDAN.thresholds`, `Mem.CEEMDAN.endCondition` |
| `CEEMDAN._decompose_noise` | 328-341 | `CEEMDAN.vdiv`, `CEEMDAN.pieces`, `CEEMDAN.normalise`, `CEEMDAN.decomposeNoise`, `CEEMDAN.Extern.noiseRows`, `CEEMDAN.Extern.decomposed`, `Mem.CEEMDAN.decomposeAll`, `Mem.CEEMDAN.normalise`, `Mem.CEEMDAN.normaliseAll`, `Mem.CEEMDAN.decomposeNoise` |
| `CEEMDAN._eemd` | 343-372 | `CEEMDAN.vdiv`, `CEEMDAN.accumulate`, `CEEMDAN.eemd`, `Mem.CEEMDAN.readRef`, `Mem.CEEMDAN.grow`, `Mem.CEEMDAN.accumulate`, `Mem.CEEMDAN.collect`, `Mem.CEEMDAN.timeArray`, `Mem.CEEMDAN.eemd` |
| `CEEMDAN._trial_update` | 374-378 | `CEEMDAN.vscale`, `CEEMDAN.trialUpdate`, `Mem.CEEMDAN.firstRow`, `Mem.CEEMDAN.noiseOf`, `Mem.CEEMDAN.trialUpdate` |
| `CEEMDAN.emd` | 380-386 | `CEEMDAN.emd`, `Ext`, `CEEMDAN.Extern.noiseRows`, `Mem.CEEMDAN.inner` |
| `CEEMDAN.get_imfs_and_residue` | 388-395 | `CEEMDAN.Obj.getImfsAndResidue`, `Mem.CEEMDAN.Obj.getImfsAndResidue` |

## PyEMD/EEMD.py

| function | lines | model |
|---|---|---|
| `EEMD.__init__` | 83-108 | `Rng`, `EEMD.NoiseKind`, `EEMD.Cfg`, `EEMD.Obj`, `External (module comment)`, `EEMD.Extern.Obj`, `Init (module comment)`, `Value`, `Init.pyBool`, `Init.noiseKind`, `Init.processes`, `Init.eemd`, `Mem.EEMD.Obj` |
| `EEMD.__call__` | 110-113 | *delegates to the main method with the same arguments* |
| `EEMD.__getstate__` | 115-117 | *part of the assumption on `multiprocessing.Pool`: a worker gets a copy of the attributes (without the pool)* |
| `EEMD.generate_noise` | 119-149 | `EEMD.NoiseKind`, `EEMD.generateNoise`, `Init.noiseKind`, `EEMD.Obj.eemdInt` |
| `EEMD.noise_seed` | 151-153 | `EEMD.Obj.noiseSeed`, `Mem.EEMD.Obj.noiseSeed` |
| `EEMD.eemd` | 155-230 | `EEMD.Dict.append`, `EEMD.Job`, `EEMD.addImfs`, `EEMD.addTrial`, `EEMD.runTrials`, `EEMD.runChunk`, `EEMD.chunkSize`, `EEMD.chunkLengths`, `EEMD.collect`, `EEMD.poolMap`, `EEMD.renameTrend`, `EEMD.finish`, `EEMD.prepare`, `EEMD.Obj.eemd`, `EEMD.Extern.addImfs`, `EEMD.Extern.addTrial`, `EEMD.Extern.runTrials`, `EEMD.Extern.runChunk`, `EEMD.Extern.meanArr`, `EEMD.Extern.residueArr`, `EEMD.Extern.finish`, `EEMD.Extern.Obj.eemd`, `IntType`, `IntType.wrap`, `IntType.sub`, `IntType.abs`, `intMax`, `intMin`, `EEMD.prepareInt`, `EEMD.Obj.eemdInt`, `Mem.EEMD.RowRef`, `Mem.EEMD.RowRef.read`, `Mem.EEMD.Job`, `Mem.EEMD.addImfs`, `Mem.EEMD.addTrial`, `Mem.EEMD.runTrials`, `Mem.EEMD.toArrays`, `Mem.EEMD.finish`, `Mem.EEMD.timeArray`, `Mem.EEMD.Obj.eemd` |
| `EEMD._trial_update` | 232-243 | `EEMD.trialUpdate`, `Ext`, `EEMD.Extern.TrialState`, `EEMD.Extern.trialUpdate`, `ofInt`, `Mem.EEMD.TrialState`, `Mem.EEMD.separate`, `Mem.EEMD.trialUpdate` |
| `EEMD.emd` | 245-251 | `EEMD.trialUpdate`, `Ext`, `EEMD.Extern.trialUpdate`, `Mem.EEMD.trialUpdate` |
| `EEMD.get_imfs_and_residue` | 253-265 | `EEMD.Obj.getImfsAndResidue`, `Mem.EEMD.Obj.getImfsAndResidue` |
| `EEMD.all_imfs` | 267-270 | `EEMD.Obj` |
| `EEMD.ensemble_count` | 272-274 | `EEMD.ensembleCount` |
| `EEMD.ensemble_mean` | 276-278 | `EEMD.meanRows`, `EEMD.ensembleMean`, `EEMD.Extern.meanArr`, `EEMD.Extern.stackArr` |
| `EEMD.ensemble_std` | 280-282 | `EEMD.stdRows`, `EEMD.ensembleStd` |

## PyEMD/EMD.py

| function | lines | model |
|---|---|---|
| `EMD.__init__` | 61-117 | `EMD.Cfg`, `EMD.Cfg.default`, `EMD.Obj`, `EMD.Obj.new`, `EMD.Detection`, `EMD.Op`, `roundDiv`, `excess`, `rndNat`, `rndInt`, `Rep`, `F64`, `Ieee.round`, `Ieee.isFinite`, `Init (module comment)`, `Value`, `Kwargs`, `PyStr`, `Init.get`, `Init.pyFloat`, `Init.pyInt`, `Init.detection`, `Init.emd`, `Mem.Obj`, `Mixed.narrowCfg` |
| `EMD.__call__` | 119-120 | *delegates to the main method with the same arguments* |
| `EMD.extract_max_min_spline` | 122-163 | `Mixed.siftOnce`, `EMD.Envelopes`, `EMD.extractMaxMinSpline` |
| `EMD.prepare_points` | 165-207 | `EMD.preparePoints` |
| `EMD.prepare_points_parabol` | 209-325 | `Jit.preparePoints`, `EMD.leftParabol`, `EMD.rightParabol`, `EMD.preparePointsParabol` |
| `EMD.prepare_points_simple` | 327-455 | `Jit.preparePointsSimple`, `Matlab.preparePoints`, `EMD.leftBound`, `EMD.rightBound`, `EMD.fillMissing`, `EMD.mirrorTimes`, `EMD.leftMirror`, `EMD.rightMirror`, `EMD.dropDupKnots`, `EMD.preparePointsSimple`, `Py (module comment)` |
| `EMD.spline_points` | 457-498 | `PyStr`, `Init.splineKind`, `Mixed.scipyEnv`, `Scipy.linearAt`, `Scipy.linear`, `Scipy.half`, `Scipy.quadA`, `Scipy.quadB`, `Scipy.quadC`, `Scipy.quadD`, `Scipy.quadSlopes`, `Scipy.quadPiece`, `Scipy.quadAt`, `Scipy.quadratic`, `Scipy.scipy`, `SciPy`, `EMD.SplineKind`, `EMD.splinePoints` |
| `EMD._not_duplicate` | 500-519 | `EMD.notDuplicate` |
| `EMD.find_extrema` | 521-550 | `EMD.Extrema`, `EMD.findExtrema` |
| `EMD._find_extrema_parabol` | 552-610 | `EMD.parabolVertex`, `EMD.parabolVertices`, `EMD.findExtremaParabol`, `Jit.findExtrema` |
| `EMD._find_extrema_simple` | 612-687 | `EMD.zeroRunMids`, `EMD.zeroCrossings`, `EMD.flatRuns`, `EMD.dropFirstRun`, `EMD.dropLastRun`, `EMD.extremaIdx`, `EMD.findExtremaSimple`, `Ieee.mul`, `Ieee.lt`, `Ieee.beq`, `Matlab.findExtrema` |
| `EMD.end_condition` | 689-718 | `EMD.endCondition`, `Ieee.neg`, `Ieee.pick`, `Ieee (module comment)` |
| `EMD.check_imf` | 720-761 | `EMD.checkImf`, `Ieee.div`, `Ieee (module comment)`, `Mixed.narrowCfg` |
| `EMD._normalize_time` | 763-771 | `EMD.normalizeTime`, `Types.quotientType`, `Types.apart`, `Types.normalizeStamps` |
| `EMD.emd` | 773-920 | `EMD.prepareTime`, `EMD.Sift`, `EMD.countExt`, `EMD.siftOnce`, `EMD.siftBody`, `EMD.siftLoop`, `EMD.emdRound`, `EMD.emdLoop`, `EMD.finish`, `EMD.emdRounds`, `EMD.emdPure`, `EMD.Obj.emd`, `Ext.ofEmd`, `EMD.Op`, `Ieee (module comment)`, `Ieee`, `F64`, `F32`, `F16`, `Ieee.add`, `Init (module comment)`, `Mem.MemM`, `Mem.py`, `Mem.newVec`, `Mem.newMat`, `Mem.readVec`, `Mem.readMat`, `Mem.writeVec`, `Mem.writeMat`, `Mem.readOpt`, `Mem.copyVec`, `Mem.setVec`, `Mem.MatRef`, `Mem.Sift`, `Mem.Step`, `Mem.meanEnv`, `Mem.siftOnce`, `Mem.counts`, `Mem.check`, `Mem.siftBody`, `Mem.siftLoop`, `Mem.emdRound`, `Mem.emdLoop`, `Mem.Result`, `Mem.finish`, `Mem.emd`, `Mem.Obj.emd`, `Mixed (module comment)`, `Mixed.Formats`, `Mixed.siftOnce`, `Mixed.siftBody`, `Mixed.siftLoop`, `Mixed.container`, `Mixed.emdLoop`, `Mixed.emd`, `Ieee.cast`, `Ieee.formats`, `PyErr`, `Types (module comment)`, `Types.rawTime`, `Types.prepare`, `Types.emd` |
| `EMD.get_imfs_and_residue` | 922-936 | `EMD.Obj.getImfsAndResidue`, `EMD.Op`, `Mem.writeMat`, `Mem.Obj.getImfsAndResidue` |
| `EMD.get_imfs_and_trend` | 938-960 | `EMD.Obj.getImfsAndTrend`, `Arr`, `Ext.ofEmd`, `EMD.Op`, `Mem.Obj.getImfsAndTrend` |

## PyEMD/EMD2d.py

| function | lines | model |
|---|---|---|
| `EMD2D.__init__` | 50-63 | `Cfg2`, `EMD2D.Cfg.default`, `InitImage (module comment)`, `InitImage.defaults`, `InitImage.assign`, `InitImage.new` |
| `EMD2D.__call__` | 65-66 | *delegates to the main method with the same arguments* |
| `EMD2D.extract_max_min_spline` | 68-95 | `Img`, `Img.px`, `EMD2D.splinePoints`, `EMD2D.extractMaxMinSpline` |
| `EMD2D.prepare_image` | 97-152 | `Img`, `Img.ofFn`, `Img.fliplr`, `Img.flipud`, `EMD2D.prepareImage` |
| `EMD2D.spline_points` | 154-163 | `Surface`, `EMD2D.splinePoints` |
| `EMD2D.find_extrema` | 165-214 | `Img.map`, `EMD2D.window`, `EMD2D.isLocalMax`, `EMD2D.peaks`, `EMD2D.findExtrema` |
| `EMD2D.end_condition` | 216-234 | `Img.sum`, `Img.allclose`, `EMD2D.endCondition` |
| `EMD2D.check_proto_imf` | 236-276 | `Img.mean`, `Img.allclose`, `EMD2D.checkProtoImf`, `InitImage.attr`, `InitImage.threshold`, `InitImage.check`, `EMD2D.ofIntImg` |
| `EMD2D.emd` | 278-380 | `Img.map`, `Img.sub`, `Img.add`, `Img.zeros`, `Img.sum`, `EMD2D.sift`, `EMD2D.loop`, `EMD2D.addLast`, `EMD2D.emd`, `InitImage.attr`, `InitImage.below`, `InitImage.beyond`, `InitImage.reached`, `InitImage.sift`, `InitImage.loop`, `InitImage.emd`, `IntType`, `IntType.sub`, `intMax`, `intMin`, `ofInt`, `EMD2D.emdInt`, `MemoryImage (module comment)`, `MemImg.Heap`, `MemImg.MemM`, `MemImg.py`, `MemImg.newImg`, `MemImg.newStack`, `MemImg.readImg`, `MemImg.readStack`, `MemImg.writeStack`, `MemImg.copyImg`, `MemImg.EMD2D.sift`, `MemImg.EMD2D.loop`, `MemImg.EMD2D.finish`, `MemImg.EMD2D.emd` |

## PyEMD/EMD_matlab.py

| function | lines | model |
|---|---|---|
| `EMD.__init__` | 45-63 | `Matlab.Cfg`, `Matlab.Cfg.default` |
| `EMD.extractMaxMinSpline` | 65-92 | `Matlab.extractMaxMinSpline` |
| `EMD.preparePoints` | 94-224 | `Matlab.timeIdx`, `Matlab.asBug`, `Matlab.preparePoints`, `Matlab.cut`, `Matlab.byteScalar` |
| `EMD.splinePoints` | 226-262 | `Matlab.splinePoints`, `Matlab.cut` |
| `EMD.cubicSpline_3points` | 264-303 | `Matlab.splinePoints`, `Matlab.cut` |
| `EMD.findExtrema` | 305-395 | `Matlab.usedRuns`, `Matlab.runLoop`, `Matlab.extremaIdx`, `Matlab.findExtrema` |
| `EMD.stop_sifting` | 397-429 | `Matlab.divGt`, `Matlab.stopSifting` |
| `EMD.emd` | 431-623 | `Matlab.Sift`, `Matlab.SiftEnd`, `Matlab.SiftStep`, `Matlab.countExt`, `Matlab.siftBody`, `Matlab.siftLoop`, `Matlab.dictSet`, `Matlab.State`, `Matlab.emdRound`, `Matlab.emdLoop`, `Matlab.dictGets`, `Matlab.Result`, `Matlab.finish`, `Matlab.emd`, `MatlabInt (module comment)`, `Matlab.emdInt`, `Matlab.byteScalar`, `Matlab.byteTimes`, `Mem.Matlab.State`, `Mem.Matlab.emdRound`, `Mem.Matlab.emdLoop`, `Mem.Matlab.readVecs`, `Mem.Matlab.scaleAll`, `Mem.Matlab.Result`, `Mem.Matlab.finish`, `Mem.Matlab.emd` |

## PyEMD/checks.py

| function | lines | model |
|---|---|---|
| `mean_period` | 12-15 | `Checks.MathFns`, `Checks.meanPeriod`, `Checks.ahead`, `Checks.localMaxima`, `Checks.findPeaks`, `Checks.peakCount` |
| `energy` | 19-21 | `Checks.energy` |
| `significance_apriori` | 25-31 | `Checks.MathFns`, `Checks.quantile`, `Checks.significanceApriori` |
| `significance_aposteriori` | 35-39 | `Checks.quantile`, `Checks.significanceAposteriori` |
| `whitenoise_check` | 42-137 | `Checks.MathFns`, `Checks.Arg`, `Checks.quantile`, `Checks.aprioriFlag`, `Checks.scalingFactor`, `Checks.aposterioriFlag`, `Checks.collect`, `Checks.whitenoiseCheck` |

## PyEMD/compact.py

| function | lines | model |
|---|---|---|
| `TDMAsolver` | 4-31 | `Compact.cpAt`, `Compact.pivot`, `Compact.dpAt`, `Compact.backAt`, `Compact.tdma`, `Compact.TDMAsolver` |
| `filt6` | 34-90 | `Compact.filt6Rhs`, `Compact.filt6A`, `Compact.filt6C`, `Compact.filt6` |
| `pade6` | 93-161 | `Compact.pade6Rhs`, `Compact.pade6A`, `Compact.pade6C`, `Compact.pade6` |

## PyEMD/experimental/jitemd.py

| function | lines | model |
|---|---|---|
| `JitEMD.__init__` | 54-60 | `JitConfig.Ref`, `JitConfig.World.pick`, `Jit.Obj`, `Jit.Obj.new`, `Mem.Jit.Obj` |
| `JitEMD.get_imfs_and_trend` | 62-65 | `Arr`, `Jit.Obj.getImfsAndTrend`, `Mem.Jit.View.read`, `Mem.Jit.Obj.getImfsAndTrend` |
| `JitEMD.emd` | 67-78 | `Arr`, `Init (module comment)`, `JitConfig.World.emd`, `Jit.Obj.emd`, `Mem.Jit.View`, `Mem.Jit.Obj.emd` |
| `JitEMD.__call__` | 80-81 | *delegates to the main method with the same arguments* |
| `np_round` | 84-87 | `Jit (module comment)` |
| `_not_duplicate` | 90-100 | `Jit (module comment)` |
| `cubic_spline_3pts` | 103-142 | `Jit (module comment)` |
| `akima` | 145-148 | `Jit (module comment)` |
| `nb_diff` | 151-153 | `Jit (module comment)` |
| `_find_extrema_simple` | 156-227 | `Jit.zeroCrossings`, `Jit.usedRuns`, `Jit.runLoop`, `Jit.extremaIdx`, `Jit.findExtremaSimple` |
| `_find_extrema_parabol` | 230-287 | `Jit (module comment)` |
| `find_extrema` | 290-324 | `Jit.findExtrema` |
| `prepare_points` | 327-371 | `Jit.preparePoints` |
| `_prepare_points_parabol` | 374-484 | `Jit (module comment)` |
| `_prepare_points_simple` | 487-614 | `Jit.keepAfter`, `Jit.dropDup`, `Jit.preparePointsSimple` |
| `spline_points` | 617-640 | `Jit.splinePoints` |
| `extract_max_min_extrema` | 643-688 | `Jit.extractMaxMinExtrema` |
| `end_condition` | 691-719 | `Jit.endCondition` |
| `check_imf` | 722-764 | `Jit.checkImf` |
| `_normalize_time` | 767-775 | `Jit (module comment)` |
| `emd` | 778-924 | `Ext.ofJit`, `Init (module comment)`, `JitConfig.Dict.read`, `JitConfig.Dict.cfg`, `JitConfig.World.emd`, `Jit.countExt`, `Jit.siftOnce`, `Jit.siftBody`, `Jit.siftLoop`, `Jit.emdRound`, `Jit.vstack`, `Jit.emdLoop`, `Jit.emd`, `Mem.Jit.emdRound`, `Mem.Jit.emdLoop`, `Mem.Jit.finish`, `Mem.Jit.emd` |
| `get_timeline` | 927-942 | `Jit (module comment)` |
| `smallest_inclusive_dtype` | 945-973 | `Jit (module comment)` |

## PyEMD/splines.py

| function | lines | model |
|---|---|---|
| `cubic_spline_3pts` | 5-43 | `Jit.splinePoints`, `Matlab.splinePoints`, `solve3`, `spline3Slopes`, `spline3Seg`, `cubicSpline3pts` |
| `akima` | 46-48 | `Scipy.interval`, `Scipy.cubicAt`, `Scipy.akimaM`, `Scipy.akimaF1`, `Scipy.akimaF2`, `Scipy.akimaSlope`, `Scipy.akima`, `SciPy` |
| `cubic_hermite` | 51-54 | `Scipy.piece`, `Scipy.interval`, `Scipy.cubicAt`, `Scipy.gradient`, `Scipy.cubicHermite`, `SciPy` |
| `cubic` | 57-59 | `Scipy.interval`, `Scipy.cubicAt`, `Scipy.cubicA`, `Scipy.cubicB`, `Scipy.cubicC`, `Scipy.cubicD`, `Scipy.cubicSlopes`, `Scipy.cubic`, `SciPy` |
| `pchip` | 62-64 | `Scipy.interval`, `Scipy.cubicAt`, `Scipy.sgn`, `Scipy.pchipEnd`, `Scipy.pchipSlope`, `Scipy.pchip`, `SciPy` |

## PyEMD/utils.py

| function | lines | model |
|---|---|---|
| `get_timeline` | 12-27 | `EMD.timeline`, `Utils.arangeElem`, `Utils.arange`, `Utils.lastDiffers`, `Utils.getTimeline` |
| `smallest_inclusive_dtype` | 30-58 | `Utils.DType`, `Utils.DType.isInteger`, `Utils.DType.isFloating`, `Utils.DType.maxVal`, `Utils.firstAbove`, `Utils.smallestInclusiveDtype` |
| `deduce_common_type` | 61-69 | `Utils.promoteTypes`, `Utils.deduceCommonType` |
| `unify_types` | 72-79 | `Mem.emd`, `Utils.unifyTypes` |

## PyEMD/visualisation.py

| function | lines | model |
|---|---|---|
| `Visualisation.__init__` | 23-30 | `Vis.Obj`, `Vis.Obj.new` |
| `Visualisation._check_imfs` | 32-43 | `Vis.Obj.checkImfs` |
| `Visualisation.plot_imfs` | 45-77 | `Vis.Axes`, `Vis.subplots`, `Vis.draw`, `Vis.drawAll`, `Vis.Obj.plotImfs` |
| `Visualisation.plot_instant_freq` | 79-120 | `Vis.Axes`, `Vis.subplots`, `Vis.draw`, `Vis.drawAll`, `Vis.Obj.plotInstantFreq` |
| `Visualisation._calc_inst_phase` | 122-133 | `Vis.Ext`, `Vis.rawPhase`, `Vis.instPhase` |
| `Visualisation._calc_inst_freq` | 135-146 | `Vis.Ext`, `Vis.phaseDeriv`, `Vis.instFreqRow`, `Vis.instFreq` |
| `Visualisation.show` | 148-149 | *not modelled (opens a window)* |

116 functions, 107 of them cited.
