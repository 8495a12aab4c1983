import json
mods=["Verif.NN."+m for m in "Float FloatSpec FloatReal FloatWitness FloatLemmas PropsFloatAct PropsFloatNan PropsFloatSoftmax PropsFloatCost PropsFloatSafe".split()]
props=[
["C72","Activation functions in double arithmetic","With IEEE doubles, every activation function of a finite pre-activation is not NaN and lies in its documented range after rounding, and so does every derivative. relu and hardtanh must not hide a NaN.","all finite doubles z (and NaN), all thirteen activation functions and derivatives, any rounding and C library within the stated bounds","2^64 arguments, and the answer depends on where exp overflows",["src/act.cpp"]],
["C73","A NaN weight is never repaired and silently decides predictions","Once a weight is NaN it stays NaN under every further sequence of forwardprop, backprop, update, setlrate, predict and training calls; if it is the bias of output class 0 predict answers class 0 with value NaN for every sample, if it is the bias of another class predict never answers that class; no call reports an error because of it; one training step spreads it to every hidden unit.","all networks, call histories, data and labels; output activations that keep NaN","all histories after the first NaN",["src/neuralnet.cpp","src/layer/layer.cpp","src/layer/outputlayer.cpp:argmax"]],
["C74","Softmax output: overflow in training","Training a network with a SoftmaxOutput in double arithmetic: outputs between -600 and 600 give finite deltas; one output of 710 or more (or all outputs of a row at -746 or less) makes biases NaN in that step and all biases NaN in the next, after which predict answers class 0 for every sample forever.","all networks with a softmax output, data, labels and later call histories","depends on overflow of exp inside training histories",["src/output/softmaxoutput.cpp","src/neuralnet.cpp"]],
["C75","Costs in double arithmetic","computecost of finite predictions and labels in [0,1] is not NaN. Exactly when it fails: cross entropy with a saturated right answer (sigmoid is exactly 1 from 38 on), Kullback-Leibler with any zero label, softmax with an output of 710 or more or a rejected class at -746 or less; the quadratic cost is never NaN or negative.","all predictions and labels (matrices of any size), four cost functions","cost is evaluated on every double; saturation only shows after long training",["src/neuralnet.cpp:computecost","src/output/crossentropyoutput.cpp","src/output/kullbackleibleroutput.cpp","src/output/softmaxoutput.cpp","src/output/quadraticoutput.cpp"]],
["C76","Moderate networks compute without overflow","If weights, learning rates, decay factors and sizes are bounded by M (8 <= M < 2^50), hidden activations are bounded ones, and data are bounded by M, then with IEEE doubles every output is a finite number, predict answers the first class with the largest output, and after a training step (quadratic or cross entropy output) every weight is a number bounded by an explicit power of M.","all M, depths, widths, batch sizes, weights and data within the bounds; any order of summation","all sizes, values and orders of summation of the BLAS",["src/neuralnet.cpp","src/layer/layer.cpp","src/act.cpp","src/output/quadraticoutput.cpp","src/output/crossentropyoutput.cpp"]]]
A=" Assumes the laws of double arithmetic listed in class Ieee (FloatSpec.lean) as hypotheses; FloatReal.lean shows that the same code over the reals is the network model of the other properties."
notes={
"C72":["partial","True of all values except smoothrelu from 710 on (infinite) and of ten derivatives; the derivatives of sigmoid (z <= -710), comploglog and smoothrelu (z >= 710) are NaN, proved with the exact condition; relu and hardtanh do hide a NaN (proved)."+A],
"C73":["proved","Dense networks that own their layers."+A],
"C74":["proved","Between 600 and 710 nothing is claimed."+A],
"C75":["partial","The general claim is refuted for three of the four costs; sufficient conditions for each failure and a sufficient condition for a finite cross entropy are proved."+A],
"C76":["proved","Softmax outputs are covered by C74; Kullback-Leibler is excluded (division by predictions)."+A]}
json.dump({"mods":mods,"props":props,"notes":notes,"design":"(C72-C76) the dense code over a lawless arithmetic, IEEE laws as hypotheses (class Ieee); interval reasoning on values, NaN propagation, induction over layers and calls."},open('/tmp/gen/r72.json','w'))
