import json
mods=["Verif.NN."+m for m in "FloatFile FloatFileLemmas FloatFileLemmas2 PropsFloatFile".split()]
props=[["C79","Saving and loading doubles","With weights of type double: saving a network of finite weights and loading the file into a network of the same architecture gives every weight back as a finite number of the same sign (minus zero included) with a relative error of at most 1/100000, changes nothing else, and saving again gives the identical file exactly if no weight is +-202403*2^-1074. If a weight is infinite or NaN, that weight and every weight after it in the file are loaded as +0 and the weights before it come back. Whatever a file contains, loaded weights are finite.","all networks of dense layers, all double values including subnormals, infinities, NaN and both zeros, all files","all 2^64 values of every weight, and files of any content; the one unstable value would not be found by tests",["src/neuralnet.cpp:save,load"]]]
notes={"C79":["proved","Formatting is %.6g of the exact value with ties to even, strtod rounds correctly (glibc), overflow fails the stream (libstdc++): part of the model (FloatFile.lean), not of the repository. Includes the refutation that the second file is always identical."]}
json.dump({"mods":mods,"props":props,"notes":notes,"design":"(C79) save/load of File.lean over any number type, instantiated at binary64 with %.6g and correctly rounded strtod; reading lemma by induction over the pieces of the file; stability by comparing the spacing of doubles with the unit of the sixth digit (three ranges of exponents, one exceptional value)."},open('/tmp/gen/r79.json','w'))
